import Verif.Proofs.Print
import Verif.Proofs.ParserBounds
import Verif.Props.Normalize
/-
Properties of the parser and the printer (src/Narsese.c): C34 (parsing), C35 (printing), C36 (bounds).
-/
namespace ONA

/-- **C34**. In every session, for every written term whose tree fits into the 64 slots (with names known or room for new
ones, and a text within the length limit): parsing the text registers its names, without changing any name registered
before, and yields, up to the normalisation of variables, the term whose tree is the tree of the text. -/
theorem C34_parse (h : List (CStr × Nat)) (n : Narsese) (hs : Narsese.Session h n) (e : Expr) (he : e.WellFormed)
    (hf : e.ntree.Fits 0) (hl : e.text.length + 3 ≤ NARSESE_LEN_MAX) (hr : n.Room e.ntree) :
    ∃ h' n' t, Narsese.Session h' n' ∧ n.Grows n' ∧ t.Closed ∧ (∀ i, n'.KnowsAtom (t.get i)) ∧ t.tree.named n' = e.ntree ∧
      Narsese_Term n e.text = (Variable_Normalize n' t).map (·, n') := by
  obtain ⟨h', n', t, hs', b, hc, ht⟩ := term_text he hs hf hl hr
  refine ⟨h', n', t, hs', b.grows, hc, ?_, b.tree, ht⟩
  intro i
  obtain ⟨p, rfl⟩ := exists_path i
  exact b.knows p

/-- A name of a variable: `$`, `#` or `?` followed by something. -/
def variableName (s : CStr) : Bool :=
  decide (2 ≤ s.length) && (decide (s.head? = some '$') || decide (s.head? = some '#') || decide (s.head? = some '?'))

theorem isVariable_name {n : Narsese} {a : Atom} (h : variableName (n.nameOf a) = false) : Variable_isVariable n a = false := by
  unfold variableName at h
  unfold Variable_isVariable Variable_isIndependentVariable Variable_isDependentVariable Variable_isQueryVariable
  by_cases h2 : 2 ≤ (n.nameOf a).length
  · rw [decide_eq_true h2] at h ⊢
    cases decide (a ≠ 0) <;> simp_all
  · rw [decide_eq_false h2]; simp

theorem name_mem {n : Narsese} {t : Term} (hc : t.Closed) : ∀ (p : List Bool) (i : Nat), t.get (pathPos i p) ≠ 0 →
    t.get i ≠ 0 ∧ n.nameOf (t.get (pathPos i p)) ∈ ((t.treeAt i).named n).names := by
  intro p
  induction p with
  | nil =>
    intro i h
    have h' : t.get i ≠ 0 := h
    refine ⟨h', ?_⟩
    rw [t.treeAt_node h']
    simp [Tree.named, NTree.names, pathPos]
  | cons b p ih =>
    intro i h
    obtain ⟨h1, h2⟩ := ih (childPos i b) h
    have h' := hc i b h1
    refine ⟨h', ?_⟩
    rw [t.treeAt_node h']
    cases b
    · simp only [Tree.named, NTree.names, List.mem_cons, List.mem_append]; exact Or.inr (Or.inl h2)
    · simp only [Tree.named, NTree.names, List.mem_cons, List.mem_append]; exact Or.inr (Or.inr h2)

/-- **C34**, texts without variables: the result is the term with the tree of the text. -/
theorem C34_parse_ground (h : List (CStr × Nat)) (n : Narsese) (hs : Narsese.Session h n) (e : Expr) (he : e.WellFormed)
    (hf : e.ntree.Fits 0) (hl : e.text.length + 3 ≤ NARSESE_LEN_MAX) (hr : n.Room e.ntree)
    (hv : ∀ s ∈ e.ntree.names, variableName s = false) :
    ∃ h' n' t, Narsese_Term n e.text = .ok (t, n') ∧ Narsese.Session h' n' ∧ n.Grows n' ∧ t.Closed ∧
      t.tree.named n' = e.ntree := by
  obtain ⟨h', n', t, hs', hg, hc, hk, ht, hp⟩ := C34_parse h n hs e he hf hl hr
  refine ⟨h', n', t, ?_, hs', hg, hc, ht⟩
  rw [hp, normalize_id]
  · rfl
  · intro i
    by_cases h0 : t.get i = 0
    · rw [h0]
      simp [Variable_isVariable, Variable_isIndependentVariable, Variable_isDependentVariable, Variable_isQueryVariable]
    · obtain ⟨p, rfl⟩ := exists_path i
      have := (name_mem (n := n') hc p 0 h0).2
      rw [show t.treeAt 0 = t.tree from rfl, ht] at this
      exact isVariable_name (hv _ this)

/-- `<(cat * {dog}) --> (! eats)>` with infix and prefix notation, sets and a negation. -/
def demoExpr : Expr :=
  .infx true (.infx false (.atom ['c', 'a', 't']) (['*'], '*') (.set1 true (.atom ['d', 'o', 'g'])))
    (['-', '-', '>'], ':') (.pre1 (['!'], '!') (.atom ['e', 'a', 't', 's']))

example : demoExpr.text = "<(cat * {dog}) --> (! eats)>".toList := by decide

/-- The hypotheses of `C34_parse_ground` are met in every session with a hundred free atoms. -/
example (h : List (CStr × Nat)) (n : Narsese) (_ : Narsese.Session h n) (hn : n.term_index ≤ 65435) :
    demoExpr.WellFormed ∧ demoExpr.ntree.Fits 0 ∧ demoExpr.text.length + 3 ≤ NARSESE_LEN_MAX ∧ n.Room demoExpr.ntree ∧
      ∀ s ∈ demoExpr.ntree.names, variableName s = false := by
  refine ⟨?_, by decide, by decide, Or.inr ?_, by decide⟩
  · simp only [demoExpr, Expr.WellFormed]; decide
  · have : demoExpr.ntree.size = 9 := by decide
    omega

/-- The same text in the notations `(l c r)`, `<l c r>` and `(c l r)` parses to the same term. -/
theorem C34_notations (n : Narsese) (l r : Expr) (c : CStr × Char)
    (hl : l.WellFormed) (hr : r.WellFormed) (hc : c ∈ copulaSpelling)
    (hlen : l.text.length + r.text.length ≤ 1000) :
    Narsese_Term n (Expr.infx true l c r).text = Narsese_Term n (Expr.infx false l c r).text ∧
    Narsese_Term n (Expr.pre c l r).text = Narsese_Term n (Expr.infx false l c r).text := by
  have hcl : c.1.length ≤ 3 := by revert hc c; decide
  have key : ∀ e : Expr, e.WellFormed → e.text.length + 3 ≤ NARSESE_LEN_MAX → e.toks.length ≤ NARSESE_LEN_MAX →
      Narsese_Term n e.text = (do
        let (t, n) ← buildBinaryTree 8 n Term.zero e.ptoks 1
        let t ← Variable_Normalize n t
        .ok (t, n)) := by
    intro e he h1 h2
    unfold Narsese_Term
    rw [cassert_true (by simpa using h1)]
    have hp : Narsese_PrefixTransform (Narsese_Expand e.text) = .ok e.ptoks := by
      unfold Narsese_PrefixTransform
      simp only [strtok_text he]
      rw [if_neg (by omega)]
      have := prefix_toks he 0 []
      simp only [Nat.zero_add, List.append_nil] at this
      rw [this]
      simp [prefixLoop]
    rw [hp]
    rfl
  have ht : ∀ e : Expr, e.WellFormed → e.toks.length ≤ 2 * e.text.length := by
    intro e he
    have a := strtok_bounds (Narsese_Expand e.text)
    have b := expand_bounds e.text
    rw [strtok_text he] at a
    omega
  have w1 : (Expr.infx true l c r).WellFormed := ⟨hc, hl, hr⟩
  have w2 : (Expr.infx false l c r).WellFormed := ⟨hc, hl, hr⟩
  have w3 : (Expr.pre c l r).WellFormed := ⟨hc, hl, hr⟩
  have t1 := ht _ w1
  have t2 := ht _ w2
  have t3 := ht _ w3
  have l1 : (Expr.infx true l c r).text.length ≤ 1007 := by simp [Expr.text]; omega
  have l2 : (Expr.infx false l c r).text.length ≤ 1007 := by simp [Expr.text]; omega
  have l3 : (Expr.pre c l r).text.length ≤ 1007 := by simp [Expr.text]; omega
  simp only [NARSESE_LEN_MAX] at key
  rw [key _ w1 (by omega) (by omega), key _ w2 (by omega) (by omega), key _ w3 (by omega) (by omega)]
  exact ⟨rfl, rfl⟩

/-! ### Printing -/

/-- **C35**. In every session, for every term of the shapes Narsese has, made of known atoms: the printed text is a
written form of the term's tree, with all of its names in order, and parsing it again registers nothing and yields the
normalised term. -/
theorem C35_print (h : List (CStr × Nat)) (n : Narsese) (hs : Narsese.Session h n) (t : Term) (hc : t.Closed)
    (hk : ∀ i, n.KnowsAtom (t.get i)) (hp : (t.tree.named n).Proper) :
    (∃ e : Expr, e.WellFormed ∧ e.ntree = t.tree.named n ∧ Narsese_PrintTerm n t = e.text) ∧
      Narsese_Term n (Narsese_PrintTerm n t) = (Variable_Normalize n t).map (·, n) := by
  obtain ⟨e, we, ne, le, pe⟩ := print_spec (n := n) (t := t) hp
  have hf : e.ntree.Fits 0 := by rw [ne]; exact named_fits n t 0
  have hsz := hp.size (i := 0) (k := 0) (by rw [← ne]; exact hf) (by omega) (by omega) (by omega)
  have hht := (NTree.fits_size (k := 0) (by rw [ne] at hf; exact hf) (by omega) (by omega)).2
  have htext : Narsese_PrintTerm n t = e.text := pe 7 0 rfl hht
  refine ⟨⟨e, we, ne, htext⟩, ?_⟩
  have hnames := named_names hk 0
  obtain ⟨h', n', t', hs', b, hc', ht'⟩ := term_text we hs hf (by
      simp only [NARSESE_LEN_MAX]
      have : 2 ^ (6 - 0) = 64 := rfl
      omega) (Or.inl (by rw [ne]; exact hnames))
  have en : n' = n := b.known (by rw [ne]; exact hnames)
  subst en
  have et : t' = t := by
    refine Term.eq_of_tree hc' hc ?_
    refine named_inj hs' (fun i => ?_) hk 0 (b.tree.trans ne)
    obtain ⟨p, rfl⟩ := exists_path i
    exact b.knows p
  rw [htext, ht', et]

/-- **C35**, terms without variables are read back unchanged. -/
theorem C35_roundtrip (h : List (CStr × Nat)) (n : Narsese) (hs : Narsese.Session h n) (t : Term) (hc : t.Closed)
    (hk : ∀ i, n.KnowsAtom (t.get i)) (hp : (t.tree.named n).Proper) (hv : ∀ i, Variable_isVariable n (t.get i) = false) :
    Narsese_Term n (Narsese_PrintTerm n t) = .ok (t, n) := by
  rw [(C35_print h n hs t hc hk hp).2, normalize_id n t hv]
  rfl

/-- **C35**, nothing is lost: terms that are printed the same are the same. -/
theorem C35_injective (h : List (CStr × Nat)) (n : Narsese) (hs : Narsese.Session h n) (s t : Term) (hcs : s.Closed)
    (hct : t.Closed) (hks : ∀ i, n.KnowsAtom (s.get i)) (hkt : ∀ i, n.KnowsAtom (t.get i)) (hps : (s.tree.named n).Proper)
    (hpt : (t.tree.named n).Proper) (he : Narsese_PrintTerm n s = Narsese_PrintTerm n t) : s = t := by
  obtain ⟨⟨e1, w1, n1, p1⟩, _⟩ := C35_print h n hs s hcs hks hps
  obtain ⟨⟨e2, w2, n2, p2⟩, _⟩ := C35_print h n hs t hct hkt hpt
  have htok : e1.toks = e2.toks := by rw [← strtok_text w1, ← strtok_text w2, ← p1, ← p2, he]
  have hpt : e1.ptoks = e2.ptoks := by
    have a1 := prefix_toks w1 0 []
    have a2 := prefix_toks w2 0 []
    simp only [Nat.zero_add, List.append_nil, prefixLoop] at a1 a2
    rw [← a1, ← a2, htok]
  have f1 : e1.ntree.Fits 0 := by rw [n1]; exact named_fits n s 0
  have f2 : e2.ntree.Fits 0 := by rw [n2]; exact named_fits n t 0
  obtain ⟨_, m1, t1, b1, _, c1⟩ := build_spec w1 8 h n Term.zero 0 [] hs f1
    ((NTree.fits_size (k := 0) f1 (by omega) (by omega)).2.trans (by omega))
    (Or.inl (by rw [n1]; exact named_names hks 0)) (fun p => Term.get_zero _)
  obtain ⟨_, m2, t2, b2, _, c2⟩ := build_spec w2 8 h n Term.zero 0 [] hs f2
    ((NTree.fits_size (k := 0) f2 (by omega) (by omega)).2.trans (by omega))
    (Or.inl (by rw [n2]; exact named_names hkt 0)) (fun p => Term.get_zero _)
  rw [hpt, b2] at b1
  have hpair := Except.ok.inj b1
  have e1 : t2 = t1 := congrArg Prod.fst hpair
  have e2 : m2 = m1 := congrArg Prod.snd hpair
  subst e1
  subst e2
  have : s.tree.named n = t.tree.named n := by rw [← n1, ← n2, ← c1.tree, ← c2.tree]
  exact Term.eq_of_tree hcs hct (named_inj hs hks hkt 0 this)

/-- The hypotheses are met by the term of `demoExpr`: it is closed, made of known atoms, and of the right shape. -/
example (h : List (CStr × Nat)) (n : Narsese) (hs : Narsese.Session h n) (hn : n.term_index ≤ 65435) :
    ∃ h' n' t, Narsese_Term n demoExpr.text = .ok (t, n') ∧ Narsese_Term n' (Narsese_PrintTerm n' t) = .ok (t, n') ∧
      Narsese.Session h' n' ∧ (t.tree.named n').Proper := by
  have hw : demoExpr.WellFormed := by simp only [demoExpr, Expr.WellFormed]; decide
  have hv : ∀ s ∈ demoExpr.ntree.names, variableName s = false := by decide
  have hpr : demoExpr.ntree.Proper :=
    .binary (by decide) (.binary (by decide) (.name (by decide) (by decide)) (.set1 (Or.inl rfl) (.name (by decide) (by decide))))
      (.unary (by decide) (.name (by decide) (by decide)))
  obtain ⟨h', n', t, hs', _, hc, hk, ht, hp⟩ := C34_parse h n hs demoExpr hw (by decide) (by decide)
    (Or.inr (by have : demoExpr.ntree.size = 9 := by decide
                omega))
  have hvar : ∀ i, Variable_isVariable n' (t.get i) = false := by
    intro i
    by_cases h0 : t.get i = 0
    · rw [h0]
      simp [Variable_isVariable, Variable_isIndependentVariable, Variable_isDependentVariable, Variable_isQueryVariable]
    · obtain ⟨p, rfl⟩ := exists_path i
      have := (name_mem (n := n') hc p 0 h0).2
      rw [show t.treeAt 0 = t.tree from rfl, ht] at this
      exact isVariable_name (hv _ this)
  refine ⟨h', n', t, ?_, C35_roundtrip h' n' hs' t hc hk (by rw [ht]; exact hpr) hvar, hs', by rw [ht]; exact hpr⟩
  rw [hp, normalize_id _ _ hvar]
  rfl

/-! ### Bounds -/

/-- **C36** (partial). For every text of at most 1074 characters with at most 6 opening brackets, parsing never writes
outside the term or the token array: it returns a term or stops with an error message (or with a NULL token, for an empty
or unbalanced text). Missing: texts with more brackets or more characters, for which the claim is false (`C36_deep`,
`C36_tokens`), and texts with missing tokens (`C36_empty`). -/
theorem C36_bounds_partial (h : List (CStr × Nat)) (n : Narsese) (hs : Narsese.Session h n) (s : CStr) (hl : s.length ≤ 1074)
    (ho : openers s ≤ 6) :
    (∃ t n' h', Narsese_Term n s = .ok (t, n') ∧ Narsese.Session h' n') ∨
      ∃ e, Narsese_Term n s = .error e ∧ e ≠ .ub "buildBinaryTree: atoms" ∧ e ≠ .ub "Narsese_PrefixTransform: tokens" ∧
        e ≠ .fuel := by
  rcases term_safe hs s hl ho with h1 | ⟨e, h1, h2⟩
  · exact Or.inl h1
  · refine Or.inr ⟨e, h1, ?_, ?_, ?_⟩ <;> (rintro rfl; revert h2; decide)

example : ("<((a * b) * {c}) --> (d & [e])>".toList).length ≤ 1074 ∧ openers "<((a * b) * {c}) --> (d & [e])>".toList ≤ 6 := by
  decide

/-- `A`, `(A & A)`, `((A & A) & A)`, … -/
def leftNested : Nat → Expr
  | 0 => .atom ['A']
  | k + 1 => .infx false (leftNested k) (['&'], '&') (.atom ['A'])

theorem build_deep (fuel : Nat) {h : List (CStr × Nat)} {n : Narsese} (hs : Narsese.Session h n) : ∀ (k : Nat) (t : Term) (i : Nat)
    (rest : List CStr), 64 < i * 2 ^ k → k < fuel →
    buildBinaryTree fuel n t ((leftNested (k + 1)).ptoks ++ rest) i = .error (.ub "buildBinaryTree: atoms") := by
  obtain ⟨ei, -, -⟩ := C32_initial_index h n hs ['&'] (by decide)
  induction fuel with
  | zero => intro k t i rest _ hf; omega
  | succ fuel ih =>
    intro k t i rest hi hf
    simp only [leftNested, Expr.ptoks, List.cons_append]
    unfold buildBinaryTree
    rw [if_pos rfl]
    simp only
    rw [ei]
    simp only [R.ok_bind, Term.setNode]
    by_cases hb : i - 1 < COMPOUND_TERM_SIZE_MAX
    · rw [if_pos hb]
      simp only [COMPOUND_TERM_SIZE_MAX] at hb
      simp only [R.ok_bind]
      cases k with
      | zero => simp at hi; omega
      | succ k =>
        rw [if_neg (by simp [leftNested, Expr.ptoks]), List.append_assoc, ih k _ (i * 2) _ (by
          rw [Nat.pow_succ] at hi
          rw [Nat.mul_assoc, Nat.mul_comm 2]
          exact hi) (by omega)]
        rfl
    · rw [if_neg hb]; rfl

/-- The claim of C36 is false: in every session, a text with 8 nested compounds (here `((((((((A & A) & A) …) & A)`, 49
characters) makes the parser write outside the term. The first name is written at index 127 of 64. -/
theorem C36_deep (h : List (CStr × Nat)) (n : Narsese) (hs : Narsese.Session h n) :
    Narsese_Term n (leftNested 8).text = .error (.ub "buildBinaryTree: atoms") := by
  have hw : ∀ k, (leftNested k).WellFormed := by
    intro k
    induction k with
    | zero => exact (by decide : plainName ['A'] = true)
    | succ k ih => exact ⟨by decide, ih, (by decide : plainName ['A'] = true)⟩
  unfold Narsese_Term
  rw [cassert_true (by decide)]
  have hp : Narsese_PrefixTransform (Narsese_Expand (leftNested 8).text) = .ok (leftNested 8).ptoks := by
    unfold Narsese_PrefixTransform
    simp only [strtok_text (hw 8)]
    rw [if_neg (by decide)]
    have := prefix_toks (hw 8) 0 []
    simp only [Nat.zero_add, List.append_nil] at this
    rw [this]
    simp [prefixLoop]
  rw [hp]
  simp only [R.ok_bind]
  have := build_deep 8 hs 7 Term.zero 1 [] (by decide) (by omega)
  rw [List.append_nil] at this
  rw [this]
  rfl

/-- The claim of C36 is false: a text of 1075 opening brackets `[` (within the length limit) makes two tokens of each
character, more than the token array has. -/
theorem C36_tokens (n : Narsese) :
    Narsese_Term n (List.replicate 1075 '[') = .error (.ub "Narsese_PrefixTransform: tokens") := by
  have hr : ∀ k, replaceLoop k (List.replicate k '[') = (List.replicate k ['(', '\'', ' ']).flatten := by
    intro k
    induction k with
    | zero => rfl
    | succ k ih =>
      rw [List.replicate_succ, replaceLoop]
      have : replaceStep '[' (List.replicate k '[') = (['(', '\'', ' '], List.replicate k '[') := by
        unfold replaceStep; simp
      rw [this, ih, List.replicate_succ, List.flatten_cons]
  have ht : ∀ k, (strtokLoop [] (((List.replicate k ['(', '\'', ' ']).flatten).flatMap
      fun c => if c = '(' ∨ c = ')' then [' ', c, ' '] else [c])).length = 2 * k := by
    intro k
    induction k with
    | zero => rfl
    | succ k ih =>
      rw [List.replicate_succ, List.flatten_cons, List.flatMap_append]
      simp only [List.flatMap_cons, List.flatMap_nil]
      simp [strtokLoop]
      omega
  unfold Narsese_Term
  rw [cassert_true (by rw [List.length_replicate]; decide)]
  have hp : Narsese_PrefixTransform (Narsese_Expand (List.replicate 1075 '[')) = .error (.ub "Narsese_PrefixTransform: tokens") := by
    unfold Narsese_PrefixTransform
    have : (strtok (Narsese_Expand (List.replicate 1075 '['))).length = 2150 := by
      unfold strtok Narsese_Expand replaceCopulas
      rw [List.length_replicate, hr, ht]
    simp only [this]
    rw [if_pos (by decide)]
  rw [hp]
  rfl

/-- The claim of C36 is false: parsing the empty text dereferences a NULL token. -/
theorem C36_empty (n : Narsese) : Narsese_Term n [] = .error (.ub "buildBinaryTree: NULL token") := by
  unfold Narsese_Term
  rw [cassert_true (by decide)]
  rfl

end ONA
