import Verif.Proofs.ParserTerm
/-
The printer: its text is a written form of the tree.
-/
namespace ONA

/-- Printed form of an atom with a name. -/
def printName (s : CStr) : CStr :=
  if s = [INHERITANCE] then ['-', '-', '>']
  else if s = [TEMPORAL_IMPLICATION] then ['=', '/', '>']
  else if s = [EQUIVALENCE] then ['<', '=', '>']
  else if s = [DISJUNCTION] then ['|', '|']
  else if s = [SEQUENCE] then ['&', '/']
  else if s = [HAS_CONTINUOUS_PROPERTY] then ['|', '-', '>']
  else if s = [IMPLICATION] then ['=', '=', '>']
  else if s = [CONJUNCTION] then ['&', '&']
  else if s = [SIMILARITY] then ['<', '-', '>']
  else if s = [EXT_IMAGE1] then ['/', '1']
  else if s = [EXT_IMAGE2] then ['/', '2']
  else if s = [INT_IMAGE1] then ['\\', '1']
  else if s = [INT_IMAGE2] then ['\\', '2']
  else s

/-- Printed form of a node. -/
def printNode (s : CStr) (hasL hasR : Bool) (left right : CStr) : CStr :=
  let isSingularProduct := decide (s = [PRODUCT]) && !hasR
  let isNegation := decide (s = [NEGATION])
  let isFrequencyGreater := decide (s = [SEQUENCE]) && !hasR
  let isFrequencyEqual := decide (s = [SIMILARITY]) && !hasR
  let isExtSet := decide (s = [EXT_SET])
  let isIntSet := decide (s = [INT_SET])
  let isStatement := !isFrequencyEqual && (decide (s = [TEMPORAL_IMPLICATION]) || decide (s = [INHERITANCE]) ||
    decide (s = [SIMILARITY]) || decide (s = [IMPLICATION]) || decide (s = [EQUIVALENCE]) ||
    decide (s = [HAS_CONTINUOUS_PROPERTY]))
  let ifLeft (c : Char) : CStr := if hasL then [c] else []
  let opener := if isExtSet then ifLeft '{' else if isIntSet then ifLeft '[' else if isStatement then ifLeft '<' else
    ifLeft '(' ++
      (if isNegation || isSingularProduct || isFrequencyGreater || isFrequencyEqual then
        (if isFrequencyGreater then ['+'] else if isFrequencyEqual then ['='] else printName s) ++ [' ']
      else [])
  let gap := if hasR then ifLeft ' ' else []
  let middle := if !isExtSet && !isIntSet && !decide (s = [SET_TERMINATOR]) &&
      !isNegation && !isSingularProduct && !isFrequencyEqual && !isFrequencyGreater then
      printName s ++ ifLeft ' ' else []
  let closer := if isExtSet then ifLeft '}' else if isIntSet then ifLeft ']' else if isStatement then ifLeft '>' else
    ifLeft ')'
  opener ++ left ++ gap ++ middle ++ right ++ closer

theorem printAtom_eq {n : Narsese} {a : Atom} (h : a ≠ 0) : Narsese_PrintAtom n a = printName (n.nameOf a) := by
  unfold Narsese_PrintAtom printName Narsese_copulaEquals
  rw [if_neg h]
  simp only [decide_eq_true h, Bool.true_and, decide_eq_true_iff]

theorem print_node {n : Narsese} {t : Term} {fuel i : Nat} (h : t.get i ≠ 0) :
    Narsese_PrintTermPrettyRecursive n t (fuel + 1) (i + 1) =
      printNode (n.nameOf (t.get i)) (decide (2 * i + 1 < 63) && decide (t.get (2 * i + 1) ≠ 0))
        (decide (2 * i + 2 < 63) && decide (t.get (2 * i + 2) ≠ 0) && !decide (n.nameOf (t.get (2 * i + 2)) = [SET_TERMINATOR]))
        (if 2 * i + 1 < 63 then Narsese_PrintTermPrettyRecursive n t fuel (2 * i + 1 + 1) else [])
        (if 2 * i + 2 < 63 then Narsese_PrintTermPrettyRecursive n t fuel (2 * i + 2 + 1) else []) := by
  have e1 : i + 1 - 1 = i := rfl
  have e2 : (i + 1) * 2 = 2 * i + 2 := by omega
  have e3 : 2 * i + 2 - 1 = 2 * i + 1 := rfl
  have e4 : 2 * i + 2 + 1 - 1 = 2 * i + 2 := rfl
  have c1 : (2 * i + 2 < COMPOUND_TERM_SIZE_MAX) = (2 * i + 1 < 63) := by
    simp only [COMPOUND_TERM_SIZE_MAX, eq_iff_iff]; omega
  have c2 : (2 * i + 2 + 1 < COMPOUND_TERM_SIZE_MAX) = (2 * i + 2 < 63) := by
    simp only [COMPOUND_TERM_SIZE_MAX, eq_iff_iff]; omega
  have hr : (decide (2 * i + 2 < 63) && decide (t.get (2 * i + 2) ≠ 0) && !Narsese_copulaEquals n (t.get (2 * i + 2)) SET_TERMINATOR) =
      (decide (2 * i + 2 < 63) && decide (t.get (2 * i + 2) ≠ 0) && !decide (n.nameOf (t.get (2 * i + 2)) = [SET_TERMINATOR])) := by
    unfold Narsese_copulaEquals
    cases decide (2 * i + 2 < 63) <;> cases decide (t.get (2 * i + 2) ≠ 0) <;> simp
  have hc : ∀ c, Narsese_copulaEquals n (t.get i) c = decide (n.nameOf (t.get i) = [c]) := by
    intro c; unfold Narsese_copulaEquals; rw [decide_eq_true h, Bool.true_and]
  rw [Narsese_PrintTermPrettyRecursive]
  simp only [e1, e2, e3, e4, c1, c2]
  rw [if_neg h]
  simp only [printAtom_eq h, hc, hr]
  rfl

theorem print_zero {n : Narsese} {t : Term} {fuel i : Nat} (h : t.get i = 0) :
    Narsese_PrintTermPrettyRecursive n t fuel (i + 1) = [] := by
  cases fuel with
  | zero => rfl
  | succ fuel =>
    rw [Narsese_PrintTermPrettyRecursive]
    have e1 : i + 1 - 1 = i := rfl
    simp only [e1]
    rw [if_pos h]

/-- The printed spelling of a binary copula and whether the compound is a statement. -/
def printSpelling (c : Char) : CStr × Bool :=
  (printName [c], c = TEMPORAL_IMPLICATION || c = INHERITANCE || c = SIMILARITY || c = IMPLICATION || c = EQUIVALENCE ||
    c = HAS_CONTINUOUS_PROPERTY)

theorem printSpelling_ok {c : Char} (h : c ∈ binaryCopulas) : ((printSpelling c).1, c) ∈ copulaSpelling := by
  revert h c; decide

theorem unary_ok {c : Char} (h : c ∈ unaryCopulas) : ([c], c) ∈ copulaSpelling := by
  revert h c; decide

theorem printNode_binary {c : Char} (h : c ∈ binaryCopulas) (L R : CStr) :
    printNode [c] true true L R = (if (printSpelling c).2 then '<' else '(') :: (L ++ ' ' :: ((printSpelling c).1 ++ ' ' ::
      (R ++ [if (printSpelling c).2 then '>' else ')']))) := by
  simp only [binaryCopulas, List.mem_cons, List.not_mem_nil, or_false] at h
  rcases h with rfl | rfl | rfl | rfl | rfl | rfl | rfl | rfl | rfl | rfl | rfl | rfl | rfl | rfl | rfl | rfl | rfl | rfl | rfl <;>
    simp [printNode, printSpelling, printName, INHERITANCE, TEMPORAL_IMPLICATION, EQUIVALENCE, DISJUNCTION, SEQUENCE,
      HAS_CONTINUOUS_PROPERTY, IMPLICATION, CONJUNCTION, SIMILARITY, EXT_IMAGE1, EXT_IMAGE2, INT_IMAGE1, INT_IMAGE2, PRODUCT,
      NEGATION, EXT_SET, INT_SET, SET_TERMINATOR]

theorem printNode_unary {c : Char} (h : c ∈ unaryCopulas) (L : CStr) :
    printNode [c] true false L [] = '(' :: ([c] ++ ' ' :: (L ++ [')'])) := by
  simp only [unaryCopulas, List.mem_cons, List.not_mem_nil, or_false] at h
  rcases h with rfl | rfl | rfl | rfl <;>
    simp [printNode, printName, INHERITANCE, TEMPORAL_IMPLICATION, EQUIVALENCE, DISJUNCTION, SEQUENCE,
      HAS_CONTINUOUS_PROPERTY, IMPLICATION, CONJUNCTION, SIMILARITY, EXT_IMAGE1, EXT_IMAGE2, INT_IMAGE1, INT_IMAGE2, PRODUCT,
      NEGATION, EXT_SET, INT_SET, SET_TERMINATOR]

theorem printNode_set1 (ext : Bool) (L : CStr) :
    printNode (Expr.setName ext) true false L [] = (if ext then '{' else '[') :: (L ++ [if ext then '}' else ']']) := by
  cases ext <;> simp [Expr.setName, printNode, EXT_SET, INT_SET, SEQUENCE, PRODUCT, SIMILARITY]

theorem printNode_set2 (ext : Bool) (L R : CStr) :
    printNode (Expr.setName ext) true true L R = (if ext then '{' else '[') :: (L ++ ' ' :: (R ++ [if ext then '}' else ']'])) := by
  cases ext <;> simp [Expr.setName, printNode, EXT_SET, INT_SET, SEQUENCE, PRODUCT, SIMILARITY]

theorem printName_plain {s : CStr} (h : plainName s = true) : printName s = s := by
  have hc : ∀ c ∈ Narsese_CanonicalCopulas, s ≠ [c] := by
    intro c hc e
    simp only [plainName, Bool.and_eq_true, Bool.not_eq_true', isCopulaToken, List.any_eq_false] at h
    have := h.2 c hc
    simp [e] at this
  unfold printName
  rw [if_neg (hc _ (by decide)), if_neg (hc _ (by decide)), if_neg (hc _ (by decide)), if_neg (hc _ (by decide)),
    if_neg (hc _ (by decide)), if_neg (hc _ (by decide)), if_neg (hc _ (by decide)), if_neg (hc _ (by decide)),
    if_neg (hc _ (by decide)), if_neg (hc _ (by decide)), if_neg (hc _ (by decide)), if_neg (hc _ (by decide)),
    if_neg (hc _ (by decide))]

theorem printNode_name {s : CStr} (h : plainName s = true) : printNode s false false [] [] = s := by
  have hc : ∀ c ∈ Narsese_CanonicalCopulas, decide (s = [c]) = false := by
    intro c hc
    rw [decide_eq_false_iff_not]
    intro e
    simp only [plainName, Bool.and_eq_true, Bool.not_eq_true', isCopulaToken, List.any_eq_false] at h
    have := h.2 c hc
    simp [e] at this
  unfold printNode
  simp only [hc PRODUCT (by decide), hc NEGATION (by decide), hc SEQUENCE (by decide), hc SIMILARITY (by decide),
    hc EXT_SET (by decide), hc INT_SET (by decide), hc TEMPORAL_IMPLICATION (by decide), hc INHERITANCE (by decide),
    hc IMPLICATION (by decide), hc EQUIVALENCE (by decide), hc HAS_CONTINUOUS_PROPERTY (by decide),
    hc SET_TERMINATOR (by decide), printName_plain h]
  simp

theorem printNode_terminator : printNode [SET_TERMINATOR] false false [] [] = [] := by decide

end ONA
namespace ONA

theorem named_nil {n : Narsese} {t : Term} {i : Nat} (h : (t.treeAt i).named n = .nil) : t.get i = 0 := by
  by_contra h0
  rw [t.treeAt_node h0] at h
  simp [Tree.named] at h

theorem named_node {n : Narsese} {t : Term} {i : Nat} {s : CStr} {L R : NTree} (h : (t.treeAt i).named n = .node s L R) :
    t.get i ≠ 0 ∧ n.nameOf (t.get i) = s ∧ (t.treeAt (2 * i + 1)).named n = L ∧ (t.treeAt (2 * i + 2)).named n = R := by
  by_cases h0 : t.get i = 0
  · rw [t.treeAt_zero h0] at h; simp [Tree.named] at h
  · rw [t.treeAt_node h0] at h
    simp only [Tree.named, NTree.node.injEq] at h
    exact ⟨h0, h.1, h.2.1, h.2.2⟩

theorem NTree.Proper.ne_nil {T : NTree} (h : T.Proper) : ∃ s L R, T = .node s L R ∧ s ≠ [SET_TERMINATOR] := by
  cases h with
  | name h _ => exact ⟨_, _, _, rfl, by rintro rfl; revert h; decide⟩
  | @binary c _ _ h =>
    refine ⟨_, _, _, rfl, ?_⟩
    intro e
    rw [List.singleton_inj] at e
    subst e
    revert h; decide
  | @unary c _ h =>
    refine ⟨_, _, _, rfl, ?_⟩
    intro e
    rw [List.singleton_inj] at e
    subst e
    revert h; decide
  | set1 h | set2 h => refine ⟨_, _, _, rfl, ?_⟩; rcases h with rfl | rfl <;> decide

theorem print_leaf {n : Narsese} {t : Term} {i fuel : Nat} {s : CStr} (h : (t.treeAt i).named n = .leaf s) :
    Narsese_PrintTermPrettyRecursive n t (fuel + 1) (i + 1) = printNode s false false [] [] := by
  obtain ⟨h0, hs, hl, hr⟩ := named_node h
  have zl := named_nil hl
  have zr := named_nil hr
  rw [print_node h0, print_zero zl, print_zero zr, hs, zl, zr]
  simp

theorem print_inner {n : Narsese} {t : Term} {i fuel : Nat} {s s2 : CStr} {l l2 r2 : NTree}
    (h : (t.treeAt i).named n = .node s l (.node s2 l2 r2)) (hl : l ≠ .nil) :
    Narsese_PrintTermPrettyRecursive n t (fuel + 1) (i + 1) = printNode s true (!decide (s2 = [SET_TERMINATOR]))
      (Narsese_PrintTermPrettyRecursive n t fuel (2 * i + 1 + 1)) (Narsese_PrintTermPrettyRecursive n t fuel (2 * i + 2 + 1)) := by
  obtain ⟨h0, hs, el, er⟩ := named_node h
  obtain ⟨h2, hs2, _, _⟩ := named_node er
  have h1 : t.get (2 * i + 1) ≠ 0 := by
    intro e
    rw [t.treeAt_zero e] at el
    exact hl el.symm
  have hb := Term.lt_of_get_ne h2
  simp only [COMPOUND_TERM_SIZE_MAX] at hb
  have b1 : 2 * i + 1 < 63 := by omega
  have b2 : 2 * i + 2 < 63 := by omega
  rw [print_node h0, if_pos b1, if_pos b2, hs, hs2]
  simp only [decide_eq_true b1, decide_eq_true b2, decide_eq_true h1, decide_eq_true h2, Bool.and_self, Bool.true_and]

theorem setName_of {c : Char} (h : c = EXT_SET ∨ c = INT_SET) : ∃ b, [c] = Expr.setName b := by
  rcases h with rfl | rfl
  · exact ⟨true, rfl⟩
  · exact ⟨false, rfl⟩

/-- The printer writes the tree. -/
theorem print_spec {n : Narsese} {t : Term} {T : NTree} (hp : T.Proper) :
    ∃ e : Expr, e.WellFormed ∧ e.ntree = T ∧ e.text.length + 7 ≤ 19 * (T.size + 1) ∧
      ∀ fuel i, (t.treeAt i).named n = T → T.height ≤ fuel →
        Narsese_PrintTermPrettyRecursive n t fuel (i + 1) = e.text := by
  induction hp with
  | @name s hs hl =>
    refine ⟨.atom s, hs, ?_, ?_, ?_⟩
    · simp [Expr.ntree, List.take_of_length_le hl]
    · simp only [Expr.text, NTree.leaf, NTree.size]; omega
    · intro fuel i ht hh
      cases fuel with
      | zero => simp [NTree.leaf, NTree.height] at hh
      | succ fuel => rw [print_leaf ht, printNode_name hs]; rfl
  | @binary c l r hc hl hr ihl ihr =>
    obtain ⟨e1, w1, n1, s1, p1⟩ := ihl
    obtain ⟨e2, w2, n2, s2, p2⟩ := ihr
    obtain ⟨a1, _, _, rfl, _⟩ := hl.ne_nil
    obtain ⟨a2, _, _, rfl, ha2⟩ := hr.ne_nil
    refine ⟨.infx (printSpelling c).2 e1 ((printSpelling c).1, c) e2, ⟨printSpelling_ok hc, w1, w2⟩, ?_, ?_, ?_⟩
    · simp [Expr.ntree, n1, n2]
    · have hlen : (printSpelling c).1.length ≤ 3 := by revert hc c; decide
      simp only [Expr.text, List.length_cons, List.length_append, List.length_nil]
      simp only [NTree.size] at s1 s2 ⊢
      omega
    · intro fuel i ht hh
      obtain ⟨_, _, tl, tr⟩ := named_node ht
      cases fuel with
      | zero => simp [NTree.height] at hh
      | succ fuel =>
        rw [NTree.height] at hh
        rw [print_inner ht (by simp), decide_eq_false ha2, p1 fuel _ tl (by omega), p2 fuel _ tr (by omega)]
        rw [show (!false) = true from rfl, printNode_binary hc]
        rfl
  | @unary c l hc hl ihl =>
    obtain ⟨e1, w1, n1, s1, p1⟩ := ihl
    obtain ⟨a1, _, _, rfl, _⟩ := hl.ne_nil
    refine ⟨.pre1 ([c], c) e1, ⟨unary_ok hc, w1⟩, ?_, ?_, ?_⟩
    · simp [Expr.ntree, n1]
    · simp only [Expr.text, List.length_cons, List.length_append, List.length_nil]
      simp only [NTree.size, NTree.leaf] at s1 ⊢
      omega
    · intro fuel i ht hh
      obtain ⟨_, _, tl, tr⟩ := named_node ht
      match fuel with
      | 0 => simp [NTree.height] at hh
      | 1 => simp [NTree.height, NTree.leaf] at hh
      | fuel + 2 =>
        rw [NTree.height] at hh
        rw [print_inner ht (by simp), p1 _ _ tl (by omega), print_leaf tr, printNode_terminator]
        rw [decide_eq_true rfl, show (!true) = false from rfl, printNode_unary hc]
        rfl
  | @set1 c l hc hl ihl =>
    obtain ⟨e1, w1, n1, s1, p1⟩ := ihl
    obtain ⟨a1, _, _, rfl, _⟩ := hl.ne_nil
    obtain ⟨ext, he⟩ := setName_of hc
    refine ⟨.set1 ext e1, w1, ?_, ?_, ?_⟩
    · simp [Expr.ntree, n1, he]
    · simp only [Expr.text, List.length_cons, List.length_append, List.length_nil]
      simp only [NTree.size, NTree.leaf] at s1 ⊢
      omega
    · intro fuel i ht hh
      obtain ⟨_, _, tl, tr⟩ := named_node ht
      match fuel with
      | 0 => simp [NTree.height] at hh
      | 1 => simp [NTree.height, NTree.leaf] at hh
      | fuel + 2 =>
        rw [NTree.height] at hh
        rw [print_inner ht (by simp), p1 _ _ tl (by omega), print_leaf tr, printNode_terminator]
        rw [decide_eq_true rfl, show (!true) = false from rfl, he, printNode_set1]
        rfl
  | @set2 c l r hc hl hr ihl ihr =>
    obtain ⟨e1, w1, n1, s1, p1⟩ := ihl
    obtain ⟨e2, w2, n2, s2, p2⟩ := ihr
    obtain ⟨a1, _, _, rfl, _⟩ := hl.ne_nil
    obtain ⟨a2, _, _, rfl, ha2⟩ := hr.ne_nil
    obtain ⟨ext, he⟩ := setName_of hc
    refine ⟨.set2 ext e1 e2, ⟨w1, w2⟩, ?_, ?_, ?_⟩
    · simp [Expr.ntree, n1, n2, he]
    · simp only [Expr.text, List.length_cons, List.length_append, List.length_nil]
      simp only [NTree.size] at s1 s2 ⊢
      omega
    · intro fuel i ht hh
      obtain ⟨_, _, tl, tr⟩ := named_node ht
      cases fuel with
      | zero => simp [NTree.height] at hh
      | succ fuel =>
        rw [NTree.height] at hh
        rw [print_inner ht (by simp), decide_eq_false ha2, p1 fuel _ tl (by omega), p2 fuel _ tr (by omega)]
        rw [show (!false) = true from rfl, he, printNode_set2]
        rfl

/-- Names of a term's tree fit. -/
theorem named_fits (n : Narsese) (t : Term) (i : Nat) : ((t.treeAt i).named n).Fits i := by
  induction i using pos_induction with
  | h i ih =>
    by_cases h0 : t.get i = 0
    · rw [t.treeAt_zero h0]; exact trivial
    · have hi := Term.lt_of_get_ne h0
      obtain ⟨il, ir⟩ := ih hi
      rw [t.treeAt_node h0]
      exact ⟨hi, il, ir⟩

/-- Proper trees have at most 63 nodes. -/
theorem NTree.Proper.size {T : NTree} (h : T.Proper) : ∀ {i k : Nat}, T.Fits i → i < 63 → 2 ^ k ≤ i + 1 → k ≤ 5 →
    T.size + 1 ≤ 2 ^ (6 - k) := by
  have leaf : ∀ {s : CStr} {i k : Nat}, (NTree.leaf s).Fits i → i < 63 → 2 ^ k ≤ i + 1 → k ≤ 5 →
      (NTree.leaf s).size + 1 ≤ 2 ^ (6 - k) := by
    intro s i k _ _ _ h5
    have e : 6 - k = (5 - k) + 1 := by omega
    rw [e, Nat.pow_succ]
    have : 1 ≤ 2 ^ (5 - k) := Nat.one_le_two_pow
    simp only [NTree.leaf, NTree.size]; omega
  have two : ∀ {s : CStr} {l r : NTree} {i k : Nat}, r ≠ .nil →
      (∀ {i k : Nat}, l.Fits i → i < 63 → 2 ^ k ≤ i + 1 → k ≤ 5 → l.size + 1 ≤ 2 ^ (6 - k)) →
      (∀ {i k : Nat}, r.Fits i → i < 63 → 2 ^ k ≤ i + 1 → k ≤ 5 → r.size + 1 ≤ 2 ^ (6 - k)) →
      (NTree.node s l r).Fits i → i < 63 → 2 ^ k ≤ i + 1 → k ≤ 5 → (NTree.node s l r).size + 1 ≤ 2 ^ (6 - k) := by
    intro s l r i k hr ihl ihr hf hi hk h5
    obtain ⟨_, fl, fr⟩ := hf
    have hb : 2 * i + 2 < 64 := by
      cases r with
      | nil => exact absurd rfl hr
      | node => exact fr.1
    have e : 2 ^ (k + 1) = 2 * 2 ^ k := by rw [Nat.pow_succ, Nat.mul_comm]
    have h4 : k ≤ 4 := by
      by_contra hc
      have : k = 5 := by omega
      subst this
      omega
    have a := ihl fl (k := k + 1) (by omega) (by omega) (by omega)
    have b := ihr fr (k := k + 1) (by omega) (by omega) (by omega)
    have e7 : 6 - k = (6 - (k + 1)) + 1 := by omega
    rw [e7, Nat.pow_succ]
    simp only [NTree.size]
    omega
  induction h with
  | name => exact leaf
  | binary _ _ hr ihl ihr | set2 _ _ hr ihl ihr =>
    obtain ⟨_, _, _, rfl, _⟩ := hr.ne_nil
    intro i k; exact two (by simp) ihl ihr
  | unary _ _ ihl | set1 _ _ ihl => intro i k; exact two (by simp [NTree.leaf]) ihl leaf

/-- The atoms of a term have names of the table. -/
theorem named_names {n : Narsese} {t : Term} (hk : ∀ i, n.KnowsAtom (t.get i)) (i : Nat) :
    ∀ s ∈ ((t.treeAt i).named n).names, n.HasName s := by
  induction i using pos_induction with
  | h i ih =>
    by_cases h0 : t.get i = 0
    · rw [t.treeAt_zero h0]; simp [Tree.named, NTree.names]
    · obtain ⟨il, ir⟩ := ih (Term.lt_of_get_ne h0)
      rw [t.treeAt_node h0]
      simp only [Tree.named, NTree.names, List.mem_cons, List.mem_append]
      rintro s (rfl | h | h)
      · have h1 := hk i h0
        have h2 : (t.get i).toNat ≠ 0 := fun e => h0 (BitVec.eq_of_toNat_eq (by simpa using e))
        have h3 := (t.get i).isLt
        exact ⟨(t.get i).toNat - 1, by omega, by omega, rfl⟩
      · exact il s h
      · exact ir s h

/-- Known atoms with the same name are the same. -/
theorem nameOf_inj {h : List (CStr × Nat)} {n : Narsese} (hs : Narsese.Session h n) {a b : Atom} (ha : n.KnowsAtom a) (hb : n.KnowsAtom b)
    (a0 : a ≠ 0) (b0 : b ≠ 0) (e : n.nameOf a = n.nameOf b) : a = b := by
  obtain ⟨ns, r, _, _, _⟩ := session_spec hs
  have hc := r.count
  have a1 := ha a0
  have b1 := hb b0
  have a2 : a.toNat ≠ 0 := fun e => a0 (BitVec.eq_of_toNat_eq (by simpa using e))
  have b2 : b.toNat ≠ 0 := fun e => b0 (BitVec.eq_of_toNat_eq (by simpa using e))
  unfold Narsese.nameOf at e
  rw [r.names _ (by omega), r.names _ (by omega)] at e
  simp only [List.getD, List.getElem?_eq_getElem (show a.toNat - 1 < (allInitialNames ++ ns).length by omega),
    List.getElem?_eq_getElem (show b.toNat - 1 < (allInitialNames ++ ns).length by omega), Option.getD_some] at e
  have := (r.nodup.getElem_inj_iff).1 e
  exact BitVec.eq_of_toNat_eq (by omega)

/-- Trees with the same names are the same. -/
theorem named_inj {h : List (CStr × Nat)} {n : Narsese} (hs : Narsese.Session h n) {s t : Term} (ks : ∀ i, n.KnowsAtom (s.get i))
    (kt : ∀ i, n.KnowsAtom (t.get i)) (i : Nat) : (s.treeAt i).named n = (t.treeAt i).named n → s.treeAt i = t.treeAt i := by
  induction i using pos_induction with
  | h i ih =>
    intro e
    by_cases h0 : t.get i = 0
    · rw [t.treeAt_zero h0] at e ⊢
      rw [s.treeAt_zero (named_nil e)]
    · obtain ⟨il, ir⟩ := ih (Term.lt_of_get_ne h0)
      rw [t.treeAt_node h0] at e ⊢
      obtain ⟨h0', en, el, er⟩ := named_node e
      rw [s.treeAt_node h0', il el, ir er, nameOf_inj hs (ks i) (kt i) h0' h0 en]

end ONA
