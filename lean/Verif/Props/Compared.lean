import Verif.Spec.Compared
import Verif.Proofs.Variable
import Verif.Proofs.Extends
import Verif.Props.Derived
/-
C81. Comparing the values of an attribute.
-/
namespace ONA

/-! ### Fitting -/

theorem Tree.Fits.height : ∀ (h : Nat) {T : Tree} {i : Nat}, COMPOUND_TERM_SIZE_MAX < 2 ^ h * (i + 1) → T.Fits i → T.height ≤ h
  | _, .nil, _, _, _ => Nat.zero_le _
  | 0, .node _ _ _, i, hh, hf => by have := hf.1; omega
  | h + 1, .node _ l r, i, hh, hf => by
    have e : 2 ^ (h + 1) * (i + 1) = 2 ^ h * (2 * i + 1 + 1) := by ring
    have h1 := Tree.Fits.height h (i := 2 * i + 1) (by rw [← e]; exact hh) hf.2.1
    have h2 := Tree.Fits.height h (i := 2 * i + 2)
      (Nat.lt_of_lt_of_le (by rw [← e]; exact hh) (Nat.mul_le_mul_left _ (by omega))) hf.2.2
    unfold Tree.height
    omega

theorem Tree.fits_of_height : ∀ (h : Nat) {T : Tree} {i : Nat}, T.height ≤ h → 2 ^ h * (i + 2) ≤ 2 * (COMPOUND_TERM_SIZE_MAX + 1) → T.Fits i
  | _, .nil, _, _, _ => trivial
  | 0, .node _ _ _, i, hh, _ => by unfold Tree.height at hh; omega
  | h + 1, .node _ l r, i, hh, hf => by
    unfold Tree.height at hh
    have e : 2 ^ (h + 1) * (i + 2) = 2 ^ h * (2 * i + 2 + 2) := by ring
    have hp : 1 ≤ 2 ^ h := Nat.one_le_two_pow
    refine ⟨?_, ?_, ?_⟩
    · have : 1 * (2 * i + 2 + 2) ≤ 2 ^ h * (2 * i + 2 + 2) := Nat.mul_le_mul_right _ hp
      unfold COMPOUND_TERM_SIZE_MAX at *
      omega
    · exact Tree.fits_of_height h (i := 2 * i + 1) (by omega)
        (Nat.le_trans (Nat.mul_le_mul_left _ (show 2 * i + 1 + 2 ≤ 2 * i + 2 + 2 by omega)) (by rw [← e]; exact hf))
    · exact Tree.fits_of_height h (by omega) (by rw [← e]; exact hf)

/-- Moving a subterm sideways. -/
theorem Tree.Fits.aside {T : Tree} (h : T.Fits 11) : T.Fits 12 :=
  Tree.fits_of_height 3 (Tree.Fits.height 3 (by unfold COMPOUND_TERM_SIZE_MAX; norm_num) h) (by unfold COMPOUND_TERM_SIZE_MAX; norm_num)

/-! ### Insertion -/

theorem present_zero {t : Term} (h : t.Closed) (h0 : t.get 0 = 0) : ∀ p, Present t 0 p → p = []
  | [], _ => rfl
  | b :: p, hp => absurd h0 (h 0 b hp.1)

/-- Inserting a term where there is nothing. -/
theorem insert_get {t s : Term} {i : Nat} (hi : i < COMPOUND_TERM_SIZE_MAX) (hs : s.Closed) (hf : s.tree.Fits i)
    (he : ∀ p, t.get (pathPos i p) = 0) :
    (∀ p, (Term_OverrideSubterm t i s).2.get (pathPos i p) = s.get (pathPos 0 p)) ∧
    ∀ k, (∀ p, k ≠ pathPos i p) → (Term_OverrideSubterm t i s).2.get k = t.get k := by
  obtain ⟨h1, h2, h3⟩ := C28_override t i s
  have hok : (Term_OverrideSubterm t i s).1 = true := h1.2 fun p hp => by
    by_cases h0 : s.get 0 = 0
    · rw [present_zero hs h0 p hp]
      exact hi
    · exact (fits_iff 0 i h0).1 hf p hp
  refine ⟨fun p => ?_, fun k hk => h3 k fun p _ => hk p⟩
  by_cases hp : Present s 0 p
  · exact h2 hok p hp
  · rw [h3 _ fun q hq e => hp (by rw [pathPos_inj e]; exact hq), he]
    by_contra h
    exact hp (present_of_closed hs (by decide) (Ne.symm h))

theorem pathPos_34 (p q : List Bool) : pathPos 3 p ≠ pathPos 4 q := pathPos_sibling 1 false p q
theorem pathPos_56 (p q : List Bool) : pathPos 5 p ≠ pathPos 6 q := pathPos_sibling 2 false p q
theorem pathPos_35 (p q : List Bool) : pathPos 3 p ≠ pathPos 5 q := pathPos_12 (false :: p) (false :: q)
theorem pathPos_36 (p q : List Bool) : pathPos 3 p ≠ pathPos 6 q := pathPos_12 (false :: p) (true :: q)
theorem pathPos_45 (p q : List Bool) : pathPos 4 p ≠ pathPos 5 q := pathPos_12 (true :: p) (false :: q)
theorem pathPos_46 (p q : List Bool) : pathPos 4 p ≠ pathPos 6 q := pathPos_12 (true :: p) (true :: q)

/-- The term built for a relation. -/
def relationTerm (c rel : Atom) (x y attr : Term) : Term :=
  let t := Term.zero.put 0 c
  let t := (t.put 1 (copulaAtom PRODUCT)).put 2 rel
  let t := (Term_OverrideSubterm t 3 x).2
  let t := (Term_OverrideSubterm t 4 y).2
  let t := (Term_OverrideSubterm t 5 attr).2
  let t := (Term_OverrideSubterm t 6 attr).2
  t.put 6 (copulaAtom SET_TERMINATOR)

theorem relationTerm_tree {c rel a : Atom} {x y attr : Term} (hc : c ≠ 0) (hr : rel ≠ 0) (hx : x.Closed) (hy : y.Closed)
    (hfx : x.tree.Fits 3) (hfy : y.tree.Fits 4) (ha : attr.Closed) (hat : attr.tree = .node a .nil .nil) :
    (relationTerm c rel x y attr).Closed ∧ (relationTerm c rel x y attr).tree =
      .node c (.node (copulaAtom PRODUCT) x.tree y.tree)
        (.node rel attr.tree (.node (copulaAtom SET_TERMINATOR) .nil .nil)) := by
  have hbound : ∀ i, i ≤ 6 → i < COMPOUND_TERM_SIZE_MAX := fun i h => Nat.lt_of_le_of_lt h (by decide)
  have hp0 : copulaAtom PRODUCT ≠ 0 := by decide
  have ht0 : copulaAtom SET_TERMINATOR ≠ 0 := by decide
  obtain ⟨t0, ht⟩ : ∃ t0, t0 = ((Term.zero.put 0 c).put 1 (copulaAtom PRODUCT)).put 2 rel := ⟨_, rfl⟩
  have g0 : t0.get 0 = c := by
    rw [ht, Term.get_put_ne _ _ (by decide), Term.get_put_ne _ _ (by decide), Term.get_put_same _ _ (by decide)]
  have g1 : t0.get 1 = copulaAtom PRODUCT := by
    rw [ht, Term.get_put_ne _ _ (by decide), Term.get_put_same _ _ (by decide)]
  have g2 : t0.get 2 = rel := by rw [ht, Term.get_put_same _ _ (by decide)]
  have gz : ∀ k, 2 < k → t0.get k = 0 := by
    intro k hk
    rw [ht, Term.get_put_ne _ _ (by omega), Term.get_put_ne _ _ (by omega), Term.get_put_ne _ _ (by omega), Term.get_zero]
  obtain ⟨t1, e1⟩ : ∃ t1, t1 = (Term_OverrideSubterm t0 3 x).2 := ⟨_, rfl⟩
  obtain ⟨a1, b1⟩ := insert_get (hbound 3 (by decide)) hx hfx (t := t0) fun p => gz _ (by have := le_pathPos 3 p; omega)
  rw [← e1] at a1 b1
  obtain ⟨t2, e2⟩ : ∃ t2, t2 = (Term_OverrideSubterm t1 4 y).2 := ⟨_, rfl⟩
  obtain ⟨a2, b2⟩ := insert_get (hbound 4 (by decide)) hy hfy (t := t1) fun p => by
    rw [b1 _ fun q => (pathPos_34 q p).symm]
    exact gz _ (by have := le_pathPos 4 p; omega)
  rw [← e2] at a2 b2
  have hfa : ∀ i, i < COMPOUND_TERM_SIZE_MAX → attr.tree.Fits i := by
    intro i hi
    rw [hat]
    exact ⟨hi, trivial, trivial⟩
  obtain ⟨t3, e3⟩ : ∃ t3, t3 = (Term_OverrideSubterm t2 5 attr).2 := ⟨_, rfl⟩
  obtain ⟨a3, b3⟩ := insert_get (hbound 5 (by decide)) ha (hfa 5 (by decide)) (t := t2) fun p => by
    rw [b2 _ fun q => (pathPos_45 q p).symm, b1 _ fun q => (pathPos_35 q p).symm]
    exact gz _ (by have := le_pathPos 5 p; omega)
  rw [← e3] at a3 b3
  obtain ⟨t4, e4⟩ : ∃ t4, t4 = (Term_OverrideSubterm t3 6 attr).2 := ⟨_, rfl⟩
  obtain ⟨a4, b4⟩ := insert_get (hbound 6 (by decide)) ha (hfa 6 (by decide)) (t := t3) fun p => by
    rw [b3 _ fun q => (pathPos_56 q p).symm, b2 _ fun q => (pathPos_46 q p).symm, b1 _ fun q => (pathPos_36 q p).symm]
    exact gz _ (by have := le_pathPos 6 p; omega)
  rw [← e4] at a4 b4
  obtain ⟨t5, e5⟩ : ∃ t5, t5 = t4.put 6 (copulaAtom SET_TERMINATOR) := ⟨_, rfl⟩
  have hres : relationTerm c rel x y attr = t5 := by
    rw [e5, e4, e3, e2, e1, ht]
    rfl
  rw [hres]
  have put6 : ∀ k, k ≠ 6 → t5.get k = t4.get k := fun k hk => by rw [e5, Term.get_put_ne _ _ hk]
  have v6 : t5.get 6 = copulaAtom SET_TERMINATOR := by rw [e5, Term.get_put_same _ _ (by decide)]
  have leaf : ∀ b p, attr.get (pathPos 0 (b :: p)) = 0 := fun b p => emptyBelow_of_leaf ha (i := 0) hat b p
  have v6b : ∀ b p, t5.get (pathPos 6 (b :: p)) = 0 := fun b p => by
    rw [put6 _ (by have := lt_pathPos 6 b p; omega), a4, leaf]
  have v5 : ∀ p, t5.get (pathPos 5 p) = attr.get (pathPos 0 p) := fun p => by
    rw [put6 _ (pathPos_56 p []), b4 _ (pathPos_56 p), a3]
  have v4 : ∀ p, t5.get (pathPos 4 p) = y.get (pathPos 0 p) := fun p => by
    rw [put6 _ (pathPos_46 p []), b4 _ (pathPos_46 p), b3 _ (pathPos_45 p), a2]
  have v3 : ∀ p, t5.get (pathPos 3 p) = x.get (pathPos 0 p) := fun p => by
    rw [put6 _ (pathPos_36 p []), b4 _ (pathPos_36 p), b3 _ (pathPos_35 p), b2 _ (pathPos_34 p), a1]
  have low : ∀ k, k < 3 → t5.get k = t0.get k := fun k hk => by
    have ne : ∀ i, 3 ≤ i → ∀ p, k ≠ pathPos i p := fun i hi p => by have := le_pathPos i p; omega
    rw [put6 _ (by omega), b4 _ (ne 6 (by decide)), b3 _ (ne 5 (by decide)), b2 _ (ne 4 (by decide)), b1 _ (ne 3 (by decide))]
  have w0 := (low 0 (by decide)).trans g0
  have w1 := (low 1 (by decide)).trans g1
  have w2 := (low 2 (by decide)).trans g2
  refine ⟨?_, ?_⟩
  · intro i d hne
    obtain ⟨p, rfl⟩ := exists_path i
    have sub : ∀ {k : Nat} {s : Term} (p : List Bool), s.Closed → (∀ p, t5.get (pathPos k p) = s.get (pathPos 0 p)) →
        t5.get (childPos (pathPos k p) d) ≠ 0 → t5.get (pathPos k p) ≠ 0 := by
      intro k s p hs hv hne
      have eq : ∀ k, childPos (pathPos k p) d = pathPos k (p ++ [d]) := by intro k; rw [pathPos_append]; rfl
      rw [eq, hv, ← eq] at hne
      rw [hv]
      exact hs _ d hne
    match p, hne with
    | [], _ => show t5.get 0 ≠ 0; rw [w0]; exact hc
    | [false], _ => show t5.get 1 ≠ 0; rw [w1]; exact hp0
    | [true], _ => show t5.get 2 ≠ 0; rw [w2]; exact hr
    | false :: false :: p, hne => exact sub p hx v3 hne
    | false :: true :: p, hne => exact sub p hy v4 hne
    | true :: false :: p, hne => exact sub p ha v5 hne
    | true :: true :: p, hne =>
      cases p with
      | nil => show t5.get 6 ≠ 0; rw [v6]; exact ht0
      | cons b p =>
        have : t5.get (pathPos 6 ((b :: p) ++ [d])) ≠ 0 := by rw [pathPos_append]; exact hne
        exact absurd (v6b b (p ++ [d])) this
  · show t5.treeAt 0 = _
    rw [Term.treeAt_node _ (by rw [w0]; exact hc), w0]
    show Tree.node c (t5.treeAt 1) (t5.treeAt 2) = _
    rw [Term.treeAt_node t5 (i := 1) (by rw [w1]; exact hp0), w1, Term.treeAt_node t5 (i := 2) (by rw [w2]; exact hr), w2]
    show Tree.node c (.node _ (t5.treeAt 3) (t5.treeAt 4)) (.node _ (t5.treeAt 5) (t5.treeAt 6)) = _
    rw [treeAt_eq_of 3 0 v3, treeAt_eq_of 4 0 v4, treeAt_eq_of 5 0 v5, Term.treeAt_node t5 (i := 6) (by rw [v6]; exact ht0), v6]
    show Tree.node c (.node _ _ _) (.node _ _ (.node _ (t5.treeAt 13) (t5.treeAt 14))) = _
    rw [Term.treeAt_zero t5 (i := 13) (v6b false []), Term.treeAt_zero t5 (i := 14) (v6b true [])]
    rfl

/-- A compound of two terms. -/
theorem compound_two {c : Atom} {a b : Term} (hc : c ≠ 0) (ha : a.Closed) (hb : b.Closed) (ha0 : a.get 0 ≠ 0) (hb0 : b.get 0 ≠ 0)
    (hf : (Tree.node c a.tree b.tree).Fits 0) :
    (Term_OverrideSubterm (Term_OverrideSubterm (Term.zero.put 0 c) 1 a).2 2 b).2.Closed ∧
    (Term_OverrideSubterm (Term_OverrideSubterm (Term.zero.put 0 c) 1 a).2 2 b).2.tree = .node c a.tree b.tree := by
  obtain ⟨h1, h2⟩ := buildCompound_spec c a b hc ha hb ha0 hb0
  have hok := h1.2 hf
  have hbc : buildCompound c a b = if (Term_OverrideSubterm (Term.zero.put 0 c) 1 a).1 = true then
      Term_OverrideSubterm (Term_OverrideSubterm (Term.zero.put 0 c) 1 a).2 2 b
      else (false, (Term_OverrideSubterm (Term.zero.put 0 c) 1 a).2) := rfl
  have hr : (Term_OverrideSubterm (Term.zero.put 0 c) 1 a).1 = true := by
    by_contra h
    rw [hbc, if_neg h] at hok
    cases hok
  have := h2 hok
  rwa [hbc, if_pos hr] at this

variable {n : Narsese}

/-- The conditions of the code, by position. -/
structure Paired (n : Narsese) (t : Term) (v1 v2 : ℚ) : Prop where
  sequence : n.Is (t.get 0) SEQUENCE
  first : n.Is (t.get 1) INHERITANCE ∨ n.Is (t.get 1) HAS_CONTINUOUS_PROPERTY
  second : n.Is (t.get 2) INHERITANCE ∨ n.Is (t.get 2) HAS_CONTINUOUS_PROPERTY
  product1 : n.Is (t.get 3) PRODUCT
  product2 : n.Is (t.get 5) PRODUCT
  attr : t.treeAt 4 = t.treeAt 6
  atom1 : t.get 8 ≠ 0
  atom2 : t.get 12 ≠ 0
  value1 : n.value (t.get 8) = some v1
  value2 : n.value (t.get 12) = some v2

theorem property_iff {a : Atom} : isPropertyCopula n a = true ↔ n.Is a INHERITANCE ∨ n.Is a HAS_CONTINUOUS_PROPERTY := by
  unfold isPropertyCopula
  rw [Bool.or_eq_true, is_iff, is_iff]

theorem extract_eq_iff {t : Term} (ht : t.Closed) (i j : Nat) :
    Term_ExtractSubterm t i = Term_ExtractSubterm t j ↔ t.treeAt i = t.treeAt j := by
  rw [← tree_extract, ← tree_extract]
  exact ⟨fun h => by rw [h], fun h => Term.eq_of_tree (extract_closed ht i) (extract_closed ht j) h⟩

theorem value_iff {a : Atom} {v : ℚ} : n.value a = some v ↔ n.atomHasValue (a.toNat - 1) = true ∧ n.atomValues (a.toNat - 1) = v := by
  unfold Narsese.value
  by_cases h : n.atomHasValue (a.toNat - 1) = true
  · rw [if_pos h]
    simp [h]
  · rw [if_neg h]
    simp [h]

theorem hasAtomValue_ok {a : Atom} {b : Bool} : Narsese_hasAtomValue n a = .ok b ↔ a ≠ 0 ∧ n.atomHasValue (a.toNat - 1) = b := by
  unfold Narsese_hasAtomValue
  by_cases h : a = 0
  · subst h
    simp [cassert, R.error_bind]
  · rw [cassert_true (decide_eq_true h), R.ok_bind]
    exact ⟨fun e => ⟨h, by cases e; rfl⟩, fun e => by rw [e.2]⟩

theorem getAtomValue_ok {a : Atom} (h : a ≠ 0) : Narsese_getAtomValue n a = .ok (n.atomValues (a.toNat - 1)) := by
  unfold Narsese_getAtomValue
  rw [cassert_true (decide_eq_true h), R.ok_bind]

/-- The code after the choice of the pair. -/
def comparePair (n : Narsese) (t rest : Term) : R (Option Term) :=
  if Narsese_copulaEquals n (t.get 0) SEQUENCE && isPropertyCopula n (t.get 1) && isPropertyCopula n (t.get 2) &&
      Narsese_copulaEquals n (t.get 3) PRODUCT && Narsese_copulaEquals n (t.get 5) PRODUCT &&
      decide (Term_ExtractSubterm t 4 = Term_ExtractSubterm t 6) then do
    let h1 ← Narsese_hasAtomValue n (t.get 8)
    if h1 then do
      let h2 ← Narsese_hasAtomValue n (t.get 12)
      if h2 then do
        let v1 ← Narsese_getAtomValue n (t.get 8)
        let v2 ← Narsese_getAtomValue n (t.get 12)
        .ok (some (attributeRelationTerm n t rest v1 v2))
      else .ok none
    else .ok none
  else .ok none

theorem comparePair_some {t rest u : Term} (ht : t.Closed) : comparePair n t rest = .ok (some u) ↔
    ∃ v1 v2, Paired n t v1 v2 ∧ u = attributeRelationTerm n t rest v1 v2 := by
  constructor
  · intro e
    unfold comparePair at e
    split at e
    · rename_i hc
      simp only [Bool.and_eq_true, is_iff, property_iff, decide_eq_true_eq, extract_eq_iff ht] at hc
      obtain ⟨⟨⟨⟨⟨c0, c1⟩, c2⟩, c3⟩, c4⟩, c5⟩ := hc
      obtain ⟨b1, e1, e⟩ := R.bind_eq_ok.1 e
      split at e
      · rename_i hb1
        obtain ⟨b2, e2, e⟩ := R.bind_eq_ok.1 e
        split at e
        · rename_i hb2
          obtain ⟨v1, e3, e⟩ := R.bind_eq_ok.1 e
          obtain ⟨v2, e4, e⟩ := R.bind_eq_ok.1 e
          obtain ⟨z1, f1⟩ := hasAtomValue_ok.1 e1
          obtain ⟨z2, f2⟩ := hasAtomValue_ok.1 e2
          rw [getAtomValue_ok z1] at e3
          rw [getAtomValue_ok z2] at e4
          cases e3
          cases e4
          cases e
          exact ⟨_, _, ⟨c0, c1, c2, c3, c4, c5, z1, z2, value_iff.2 ⟨f1.trans hb1, rfl⟩, value_iff.2 ⟨f2.trans hb2, rfl⟩⟩, rfl⟩
        · cases e
      · cases e
    · cases e
  · rintro ⟨v1, v2, h, rfl⟩
    obtain ⟨f1, g1⟩ := value_iff.1 h.value1
    obtain ⟨f2, g2⟩ := value_iff.1 h.value2
    unfold comparePair
    rw [if_pos (by
      simp only [Bool.and_eq_true, is_iff, property_iff, decide_eq_true_eq, extract_eq_iff ht]
      exact ⟨⟨⟨⟨⟨h.sequence, h.first⟩, h.second⟩, h.product1⟩, h.product2⟩, h.attr⟩)]
    rw [hasAtomValue_ok.2 ⟨h.atom1, f1⟩, R.ok_bind, if_pos rfl, hasAtomValue_ok.2 ⟨h.atom2, f2⟩, R.ok_bind, if_pos rfl,
      getAtomValue_ok h.atom1, R.ok_bind, getAtomValue_ok h.atom2, R.ok_bind, g1, g2]

theorem Paired.trees {t : Term} {v1 v2 : ℚ} (h : Paired n t v1 v2) :
    t.tree = .node (t.get 0) (t.treeAt 1) (t.treeAt 2) ∧ n.Measures (t.treeAt 1) (t.get 1) (t.treeAt 7) v1 (t.treeAt 4) ∧
    n.Measures (t.treeAt 2) (t.get 2) (t.treeAt 11) v2 (t.treeAt 4) := by
  have ne : ∀ {a : Atom} {c : Char}, n.Is a c → a ≠ 0 := fun h => h.1
  have ne' : ∀ {a : Atom}, (n.Is a INHERITANCE ∨ n.Is a HAS_CONTINUOUS_PROPERTY) → a ≠ 0 := fun h => h.elim (·.1) (·.1)
  refine ⟨Term.treeAt_node t (ne h.sequence), ⟨t.get 3, t.get 8, t.treeAt 17, t.treeAt 18, ?_, h.first, h.product1, h.value1⟩,
    ⟨t.get 5, t.get 12, t.treeAt 25, t.treeAt 26, ?_, h.second, h.product2, h.value2⟩⟩
  · rw [Term.treeAt_node t (i := 1) (ne' h.first), Term.treeAt_node t (i := 2 * 1 + 1) (ne h.product1),
      Term.treeAt_node t (i := 2 * (2 * 1 + 1) + 2) h.atom1]
  · rw [h.attr, Term.treeAt_node t (i := 2) (ne' h.second), Term.treeAt_node t (i := 2 * 2 + 1) (ne h.product2),
      Term.treeAt_node t (i := 2 * (2 * 2 + 1) + 2) h.atom2]

theorem node_at {t : Term} {i : Nat} {a : Atom} {l r : Tree} (h : t.treeAt i = .node a l r) :
    t.get i ≠ 0 ∧ t.get i = a ∧ t.treeAt (2 * i + 1) = l ∧ t.treeAt (2 * i + 2) = r := by
  have h0 : t.get i ≠ 0 := fun hz => by rw [t.treeAt_zero hz] at h; cases h
  rw [t.treeAt_node h0] at h
  injection h with h1 h2 h3
  exact ⟨h0, h1, h2, h3⟩

theorem Measures.at {t : Term} {i : Nat} {c : Atom} {x attr : Tree} {v : ℚ} (h : n.Measures (t.treeAt i) c x v attr) :
    t.get i = c ∧ (n.Is (t.get i) INHERITANCE ∨ n.Is (t.get i) HAS_CONTINUOUS_PROPERTY) ∧ n.Is (t.get (2 * i + 1)) PRODUCT ∧
    t.treeAt (2 * i + 2) = attr ∧ t.treeAt (2 * (2 * i + 1) + 1) = x ∧ t.get (2 * (2 * i + 1) + 2) ≠ 0 ∧
    n.value (t.get (2 * (2 * i + 1) + 2)) = some v := by
  obtain ⟨p, a, l, r, e, h1, h2, h3⟩ := h
  obtain ⟨_, f1, f2, f3⟩ := node_at e
  obtain ⟨_, g1, g2, g3⟩ := node_at f2
  obtain ⟨z, k1, _, _⟩ := node_at g3
  exact ⟨f1, by rw [f1]; exact h1, by rw [g1]; exact h2, f3, g2, z, by rw [k1]; exact h3⟩

theorem Paired.of_trees {t : Term} {q c1 c2 : Atom} {A B x y attr : Tree} {v1 v2 : ℚ} (e : t.tree = .node q A B)
    (hq : n.Is q SEQUENCE) (h1 : n.Measures A c1 x v1 attr) (h2 : n.Measures B c2 y v2 attr) :
    Paired n t v1 v2 ∧ t.get 1 = c1 ∧ t.treeAt 7 = x ∧ t.treeAt 11 = y ∧ t.treeAt 4 = attr := by
  obtain ⟨_, f1, f2, f3⟩ := node_at (i := 0) e
  rw [← f2] at h1
  rw [← f3] at h2
  obtain ⟨a1, a2, a3, a4, a5, a6, a7⟩ := Measures.at h1
  obtain ⟨b1, b2, b3, b4, b5, b6, b7⟩ := Measures.at h2
  exact ⟨⟨by rw [f1]; exact hq, a2, b2, a3, b3, a4.trans b4.symm, a6, b6, a7, b7⟩, a1, a5, b5, a4⟩

/-- The relation term for a pair. -/
theorem Paired.relation {t : Term} (ht : t.Closed) {v1 v2 : ℚ} {a : Atom} {c : Char} (h : t.treeAt 4 = .node a .nil .nil)
    (hc : n.Is (t.get 1) INHERITANCE ∧ c = INHERITANCE ∨ ¬ n.Is (t.get 1) INHERITANCE ∧ c = HAS_CONTINUOUS_PROPERTY) :
    ∃ u : Term, u.Closed ∧ u.get 0 ≠ 0 ∧ u.tree = comparison c v1 v2 (t.treeAt 7) (t.treeAt 11) (t.treeAt 4) ∧
      ∀ rest : Term, attributeRelationTerm n t rest v1 v2 = if rest.get 0 = 0 then u else
        (Term_OverrideSubterm (Term_OverrideSubterm (Term.zero.put 0 (copulaAtom SEQUENCE)) 1 rest).2 2 u).2 := by
  have hcopula : (if Narsese_copulaEquals n (t.get 1) INHERITANCE then copulaAtom INHERITANCE
      else copulaAtom HAS_CONTINUOUS_PROPERTY) = copulaAtom c := by
    rcases hc with ⟨h1, rfl⟩ | ⟨h1, rfl⟩
    · rw [if_pos (is_iff.2 h1)]
    · rw [if_neg fun h => h1 (is_iff.1 h)]
  have hc0 : copulaAtom c ≠ 0 := by
    rcases hc with ⟨-, rfl⟩ | ⟨-, rfl⟩ <;> decide
  have hcl : ∀ i, (Term_ExtractSubterm t i).Closed := fun i => extract_closed ht i
  have hx : (Term_ExtractSubterm t 7).tree.Fits 4 := by
    rw [tree_extract]; exact (t.treeAt_fits 7).mono (by decide)
  have hy : (Term_ExtractSubterm t 11).tree.Fits 4 := by
    rw [tree_extract]; exact (t.treeAt_fits 11).mono (by decide)
  have ha : (Term_ExtractSubterm t 4).tree = .node a .nil .nil := by rw [tree_extract, h]
  have key := fun {rel : Atom} (hr : rel ≠ 0) {x y : Term} (hx : x.Closed) (hy : y.Closed) (fx : x.tree.Fits 4) (fy : y.tree.Fits 4) =>
    relationTerm_tree hc0 hr hx hy (fx.mono (by decide)) fy (hcl 4) ha
  have root : ∀ {u : Term} {b : Atom} {l r : Tree}, u.tree = .node b l r → u.get 0 ≠ 0 := fun e => (node_at (i := 0) e).1
  have hseq : copulaAtom SEQUENCE ≠ 0 := by decide
  have hsim : copulaAtom SIMILARITY ≠ 0 := by decide
  unfold attributeRelationTerm
  dsimp only
  rw [hcopula]
  unfold comparison relates relationName
  rcases lt_trichotomy v1 v2 with hlt | heq | hgt
  · obtain ⟨k1, k2⟩ := key hseq (hcl 11) (hcl 7) hy hx
    simp only [if_pos hlt, if_pos (Or.inr hlt : v1 > v2 ∨ v1 < v2)]
    refine ⟨_, k1, root k2, ?_, fun rest => rfl⟩
    rw [k2, if_neg (ne_of_lt hlt), if_neg (not_lt.2 hlt.le), tree_extract, tree_extract, tree_extract]
  · obtain ⟨k1, k2⟩ := key hsim (hcl 7) (hcl 11) hx hy
    have h1 : ¬ (v1 > v2 ∨ v1 < v2) := by rintro (h | h) <;> linarith
    have h2 : ¬ v1 < v2 := by linarith
    simp only [if_neg h1, if_neg h2]
    refine ⟨_, k1, root k2, ?_, fun rest => rfl⟩
    rw [k2, if_pos heq, tree_extract, tree_extract, tree_extract]
  · obtain ⟨k1, k2⟩ := key hseq (hcl 7) (hcl 11) hx hy
    have h2 : ¬ v1 < v2 := by linarith
    simp only [if_neg h2, if_pos (Or.inl hgt : v1 > v2 ∨ v1 < v2)]
    refine ⟨_, k1, root k2, ?_, fun rest => rfl⟩
    rw [k2, if_neg (ne_of_gt hgt), if_pos hgt, tree_extract, tree_extract, tree_extract]

theorem not_both {a : Atom} (h : n.Is a INHERITANCE ∨ n.Is a HAS_CONTINUOUS_PROPERTY) : ¬ n.Is a SEQUENCE := by
  intro h1
  rcases h with h | h
  · have := h.2.symm.trans h1.2
    revert this
    decide
  · have := h.2.symm.trans h1.2
    revert this
    decide

/-- The pair chosen by the code from a longer sequence. -/
theorem attributePair_more {t : Term} (ht : t.Closed) (h0 : n.Is (t.get 0) SEQUENCE) (h1 : n.Is (t.get 1) SEQUENCE)
    (h2 : n.Is (t.get 2) INHERITANCE ∨ n.Is (t.get 2) HAS_CONTINUOUS_PROPERTY)
    (h4 : n.Is (t.get 4) INHERITANCE ∨ n.Is (t.get 4) HAS_CONTINUOUS_PROPERTY) (h5 : n.Is (t.get 5) PRODUCT)
    (h9 : n.Is (t.get 9) PRODUCT) (ha : t.treeAt 6 = t.treeAt 10) :
    (attributePair n t).2 = Term_ExtractSubterm t 3 ∧ (attributePair n t).1.Closed ∧
    (attributePair n t).1.tree = .node (copulaAtom SEQUENCE) (t.treeAt 4) (t.treeAt 2) := by
  unfold attributePair
  rw [if_pos (by
    simp only [Bool.and_eq_true, is_iff, property_iff, decide_eq_true_eq, extract_eq_iff ht]
    exact ⟨⟨⟨⟨⟨⟨h0, h1⟩, h2⟩, h4⟩, h5⟩, h9⟩, ha⟩)]
  have := compound_two (c := copulaAtom SEQUENCE) (a := Term_ExtractSubterm t 4) (b := Term_ExtractSubterm t 2) (by decide)
    (extract_closed ht 4) (extract_closed ht 2) (by rw [extract_get_root]; exact h4.elim (·.1) (·.1))
    (by rw [extract_get_root]; exact h2.elim (·.1) (·.1))
    ⟨by decide, by rw [tree_extract]; exact (t.treeAt_fits 4).mono (by decide), by rw [tree_extract]; exact t.treeAt_fits 2⟩
  rw [tree_extract, tree_extract] at this
  exact ⟨rfl, this⟩

theorem attributePair_two {t : Term} (h1 : ¬ n.Is (t.get 1) SEQUENCE) : attributePair n t = (t, Term.zero) := by
  unfold attributePair
  rw [if_neg]
  intro h
  simp only [Bool.and_eq_true, is_iff] at h
  exact h1 h.1.1.1.1.1.2

theorem comparison_fits {c : Char} {v1 v2 : ℚ} {x y : Tree} {a : Atom} (hx : x.Fits 11) (hy : y.Fits 11) :
    (comparison c v1 v2 x y (.node a .nil .nil)).Fits 2 := by
  have hb : ∀ i, i ≤ 14 → i < COMPOUND_TERM_SIZE_MAX := fun i h => Nat.lt_of_le_of_lt h (by decide)
  have key : ∀ {x y : Tree} {rel : Char}, x.Fits 11 → y.Fits 11 → (relates c x y (relationName rel (.node a .nil .nil))).Fits 2 :=
    fun hx hy => ⟨hb 2 (by decide), ⟨hb 5 (by decide), hx, hy.aside⟩, hb 6 (by decide), ⟨hb 13 (by decide), trivial, trivial⟩,
      hb 14 (by decide), trivial, trivial⟩
  unfold comparison
  split
  · exact key hx hy
  · split
    · exact key hx hy
    · exact key hy hx

/-- What the specification says, the code does. -/
theorem compared_term {seq : Term} (hs : seq.Closed) (hn : n.Base) {q c : Atom} {A X : Tree} {a : Atom}
    (hattr : seq.tree = .node q A (.node c X (.node a .nil .nil))) {U : Tree} (h : Compared n seq.tree U) :
    ∃ u, attributeRelation n seq = .ok (some u) ∧ u.tree = U := by
  cases h with
  | two q' c1 c2 A B x y attr v1 v2 c' e hq h1 h2 hc =>
    obtain ⟨hp, e1, e7, e11, e4⟩ := Paired.of_trees e hq h1 h2
    have h6 : seq.treeAt 4 = .node a .nil .nil := by
      rw [hp.attr]
      exact (node_at (node_at (i := 0) hattr).2.2.2).2.2.2
    rw [← e1] at hc
    obtain ⟨u, hu, -, ht, hr⟩ := Paired.relation hs (v1 := v1) (v2 := v2) h6 hc
    refine ⟨u, ?_, by rw [ht, e7, e11, e4]⟩
    show comparePair n (attributePair n seq).1 (attributePair n seq).2 = _
    rw [attributePair_two (not_both hp.first)]
    refine (comparePair_some hs).2 ⟨v1, v2, hp, ?_⟩
    rw [hr, if_pos (Term.get_zero _)]
  | more q' q2 c1 c2 R A B x y attr v1 v2 c' e hq hq2 h1 h2 hc =>
    obtain ⟨z0, f0, f1, f2⟩ := node_at (i := 0) e
    obtain ⟨z1, g1, g3, g4⟩ := node_at f1
    have m1 := h1
    have m2 := h2
    rw [← g4] at m1
    rw [← f2] at m2
    obtain ⟨a1, a2, a3, a4, a5, a6, a7⟩ := Measures.at m1
    obtain ⟨b1, b2, b3, b4, b5, b6, b7⟩ := Measures.at m2
    obtain ⟨p2, p1, p3⟩ := attributePair_more hs (by rw [f0]; exact hq) (by rw [g1]; exact hq2) b2 a2 b3 a3 (b4.trans a4.symm)
    have hA : seq.treeAt 4 = A := g4
    have hB : seq.treeAt 2 = B := f2
    rw [hA, hB] at p3
    obtain ⟨hp, e1, e7, e11, e4⟩ := Paired.of_trees (n := n) p3 (is_iff.1 (hn.copulaEquals (by decide))) h1 h2
    have h6 : attr = .node a .nil .nil := by
      rw [← b4]
      exact (node_at (node_at (i := 0) hattr).2.2.2).2.2.2
    rw [← e1] at hc
    obtain ⟨u, hu, hu0, ht, hr⟩ := Paired.relation p1 (v1 := v1) (v2 := v2) (e4.trans h6) hc
    rw [e7, e11, e4] at ht
    have hR : (Term_ExtractSubterm seq 3).tree = R := by rw [tree_extract]; exact g3
    have hres : attributeRelation n seq = .ok (some (attributeRelationTerm n (attributePair n seq).1 (Term_ExtractSubterm seq 3) v1 v2)) := by
      show comparePair n (attributePair n seq).1 (attributePair n seq).2 = _
      rw [p2]
      exact (comparePair_some p1).2 ⟨v1, v2, hp, rfl⟩
    refine ⟨_, hres, ?_⟩
    rw [hr]
    unfold inContext
    by_cases hz : (Term_ExtractSubterm seq 3).get 0 = 0
    · have : R = .nil := by rw [← hR]; exact Term.treeAt_zero _ hz
      rw [if_pos hz, if_pos this, ht]
    · have : R ≠ .nil := by rw [← hR]; exact fun h => hz ((Term.treeAt_eq_nil _ _).1 h)
      rw [if_neg hz, if_neg this]
      have hfx : x.Fits 11 := by rw [← a5]; exact (seq.treeAt_fits 19).mono (by decide)
      have hfy : y.Fits 11 := by rw [← b5]; exact seq.treeAt_fits 11
      have := (compound_two (c := copulaAtom SEQUENCE) (by decide) (extract_closed hs 3) hu hz hu0
        ⟨by decide, by rw [hR, ← g3]; exact (seq.treeAt_fits 3).mono (by decide), by
          rw [ht, h6]; exact comparison_fits hfx hfy⟩).2
      rw [this, hR, ht]

/-- **C81 (comparisons).** A comparison is concluded exactly when the last two elements of the sequence measure the same
attribute (an atom), and it is the right one. -/
theorem C81_compared {seq : Term} (hs : seq.Closed) (hn : n.Base) {q c : Atom} {A X : Tree} {a : Atom}
    (hattr : seq.tree = .node q A (.node c X (.node a .nil .nil))) (U : Tree) :
    Compared n seq.tree U ↔ ∃ u, attributeRelation n seq = .ok (some u) ∧ u.tree = U := by
  refine ⟨compared_term hs hn hattr, ?_⟩
  rintro ⟨u, e, rfl⟩
  have enough : (∃ U, Compared n seq.tree U) → Compared n seq.tree u.tree := by
    rintro ⟨U, hU⟩
    obtain ⟨u', e', ht⟩ := compared_term hs hn hattr hU
    rw [e] at e'
    cases e'
    rw [ht]
    exact hU
  apply enough
  have copula : ∀ a : Atom, (n.Is a INHERITANCE ∧ (INHERITANCE = INHERITANCE) ∨ ¬ n.Is a INHERITANCE ∧ INHERITANCE = HAS_CONTINUOUS_PROPERTY) ∨
      (n.Is a INHERITANCE ∧ (HAS_CONTINUOUS_PROPERTY = INHERITANCE) ∨ ¬ n.Is a INHERITANCE ∧ HAS_CONTINUOUS_PROPERTY = HAS_CONTINUOUS_PROPERTY) := by
    intro a
    by_cases h : n.Is a INHERITANCE
    · exact Or.inl (Or.inl ⟨h, rfl⟩)
    · exact Or.inr (Or.inr ⟨h, rfl⟩)
  change comparePair n (attributePair n seq).1 (attributePair n seq).2 = _ at e
  by_cases h1 : n.Is (seq.get 1) SEQUENCE
  · by_cases hc : n.Is (seq.get 0) SEQUENCE ∧ (n.Is (seq.get 2) INHERITANCE ∨ n.Is (seq.get 2) HAS_CONTINUOUS_PROPERTY) ∧
        (n.Is (seq.get 4) INHERITANCE ∨ n.Is (seq.get 4) HAS_CONTINUOUS_PROPERTY) ∧ n.Is (seq.get 5) PRODUCT ∧
        n.Is (seq.get 9) PRODUCT ∧ seq.treeAt 6 = seq.treeAt 10
    · obtain ⟨c0, c2, c4, c5, c9, ca⟩ := hc
      obtain ⟨-, p1, p3⟩ := attributePair_more hs c0 h1 c2 c4 c5 c9 ca
      obtain ⟨v1, v2, hp, -⟩ := (comparePair_some p1).1 e
      obtain ⟨k0, k1, k2⟩ := hp.trees
      rw [p3] at k0
      injection k0 with _ k3 k4
      rw [← k3] at k1
      rw [← k4] at k2
      have ht : seq.tree = .node (seq.get 0) (.node (seq.get 1) (seq.treeAt 3) (seq.treeAt 4)) (seq.treeAt 2) := by
        show seq.treeAt 0 = _
        rw [Term.treeAt_node seq c0.1, Term.treeAt_node seq (i := 2 * 0 + 1) h1.1]
      rcases copula ((attributePair n seq).1.get 1) with h | h
      · exact ⟨_, .more _ _ _ _ _ _ _ _ _ _ v1 v2 _ ht c0 h1 k1 k2 h⟩
      · exact ⟨_, .more _ _ _ _ _ _ _ _ _ _ v1 v2 _ ht c0 h1 k1 k2 h⟩
    · have : attributePair n seq = (seq, Term.zero) := by
        unfold attributePair
        rw [if_neg]
        intro h
        simp only [Bool.and_eq_true, is_iff, property_iff, decide_eq_true_eq, extract_eq_iff hs] at h
        exact hc ⟨h.1.1.1.1.1.1, h.1.1.1.1.2, h.1.1.1.2, h.1.1.2, h.1.2, h.2⟩
      rw [this] at e
      obtain ⟨v1, v2, hp, -⟩ := (comparePair_some hs).1 e
      exact absurd h1 (not_both hp.first)
  · rw [attributePair_two h1] at e
    obtain ⟨v1, v2, hp, -⟩ := (comparePair_some hs).1 e
    obtain ⟨k0, k1, k2⟩ := hp.trees
    rcases copula (seq.get 1) with h | h
    · exact ⟨_, .two _ _ _ _ _ _ _ _ v1 v2 _ k0 hp.sequence k1 k2 h⟩
    · exact ⟨_, .two _ _ _ _ _ _ _ _ v1 v2 _ k0 hp.sequence k1 k2 h⟩

end ONA
