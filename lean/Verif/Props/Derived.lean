import Verif.Spec.Derived
import Verif.Proofs.Operation
import Verif.Proofs.Closed
import Verif.Proofs.Mute
import Verif.Props.Stamp
/-
C50, C51: what is derived.
-/
namespace ONA
variable {n : Narsese}

theorem is_iff {a : Atom} {c : Char} : Narsese_copulaEquals n a c = true ↔ n.Is a c := by
  unfold Narsese_copulaEquals Narsese.Is
  rw [Bool.and_eq_true, decide_eq_true_eq, decide_eq_true_eq]

theorem is_false {a : Atom} {c : Char} : Narsese_copulaEquals n a c = false ↔ ¬ n.Is a c := by
  rw [← is_iff, Bool.not_eq_true]

/-! ### The filters -/

theorem atomTwiceLoop_iff (t : Term) : ∀ (k : Nat), k ≤ COMPOUND_TERM_SIZE_MAX → ∀ (seen : List Atom),
    (∀ a, a ∈ seen ↔ Narsese_IsSimpleAtom n a = true ∧ ∃ i, i < COMPOUND_TERM_SIZE_MAX - k ∧ t.get i = a) →
    (atomTwiceLoop n t k seen = true ↔
      ∃ i j, i < j ∧ COMPOUND_TERM_SIZE_MAX - k ≤ j ∧ j < COMPOUND_TERM_SIZE_MAX ∧ t.get i = t.get j ∧
        Narsese_IsSimpleAtom n (t.get i) = true)
  | 0, _, seen, _ => by
    simp only [atomTwiceLoop, Bool.false_eq_true, false_iff]
    rintro ⟨i, j, h1, h2, h3, -⟩
    omega
  | k + 1, hk, seen, hseen => by
    have hp : COMPOUND_TERM_SIZE_MAX - k = COMPOUND_TERM_SIZE_MAX - (k + 1) + 1 := by omega
    rw [atomTwiceLoop]
    by_cases hc : seen.contains (t.get (COMPOUND_TERM_SIZE_MAX - (k + 1))) = true
    · simp only [hc, if_true, true_iff]
      obtain ⟨hs, i, hi, he⟩ := (hseen _).1 (List.contains_iff_mem.1 hc)
      exact ⟨i, _, hi, Nat.le_refl _, by omega, he, by rw [he]; exact hs⟩
    · simp only [hc, if_false, Bool.false_eq_true]
      have hmem : t.get (COMPOUND_TERM_SIZE_MAX - (k + 1)) ∉ seen := fun h => hc (List.contains_iff_mem.2 h)
      rw [atomTwiceLoop_iff t k (by omega)]
      · constructor
        · rintro ⟨i, j, h1, h2, h3⟩
          exact ⟨i, j, h1, by omega, h3⟩
        · rintro ⟨i, j, h1, h2, h3, h4, h5⟩
          refine ⟨i, j, h1, ?_, h3, h4, h5⟩
          rcases Nat.lt_or_ge (COMPOUND_TERM_SIZE_MAX - (k + 1)) j with h | h
          · omega
          · have : j = COMPOUND_TERM_SIZE_MAX - (k + 1) := by omega
            subst this
            exact absurd ((hseen _).2 ⟨h4 ▸ h5, i, h1, h4⟩) hmem
      · intro a
        rw [hp]
        by_cases hs : Narsese_IsSimpleAtom n (t.get (COMPOUND_TERM_SIZE_MAX - (k + 1))) = true
        · rw [if_pos hs, List.mem_cons, hseen]
          constructor
          · rintro (rfl | ⟨h1, i, h2, h3⟩)
            · exact ⟨hs, _, by omega, rfl⟩
            · exact ⟨h1, i, by omega, h3⟩
          · rintro ⟨h1, i, h2, h3⟩
            rcases Nat.lt_or_ge i (COMPOUND_TERM_SIZE_MAX - (k + 1)) with h | h
            · exact .inr ⟨h1, i, h, h3⟩
            · have : i = COMPOUND_TERM_SIZE_MAX - (k + 1) := by omega
              subst this
              exact .inl h3.symm
        · rw [if_neg hs, hseen]
          constructor
          · rintro ⟨h1, i, h2, h3⟩
            exact ⟨h1, i, by omega, h3⟩
          · rintro ⟨h1, i, h2, h3⟩
            refine ⟨h1, i, ?_, h3⟩
            rcases Nat.lt_or_ge i (COMPOUND_TERM_SIZE_MAX - (k + 1)) with h | h
            · exact h
            · have : i = COMPOUND_TERM_SIZE_MAX - (k + 1) := by omega
              subst this
              exact absurd (h3 ▸ h1) hs

theorem atomAppearsTwice_iff (t : Term) : NAL_AtomAppearsTwice n t = false ↔
    (t.IsStatement n → ¬ t.RelatesProducts n → ∀ i j, i < COMPOUND_TERM_SIZE_MAX → j < COMPOUND_TERM_SIZE_MAX →
      t.get i = t.get j → Narsese_IsSimpleAtom n (t.get i) = true → i = j) ∧
    (n.IsHigherOrder (t.get 0) → Term_ExtractSubterm t 1 ≠ Term_ExtractSubterm t 2) := by
  have hl : atomTwiceLoop n t COMPOUND_TERM_SIZE_MAX [] = false ↔
      ∀ i j, i < COMPOUND_TERM_SIZE_MAX → j < COMPOUND_TERM_SIZE_MAX →
        t.get i = t.get j → Narsese_IsSimpleAtom n (t.get i) = true → i = j := by
    rw [← Bool.not_eq_true, atomTwiceLoop_iff t _ (Nat.le_refl _) [] (by simp)]
    constructor
    · intro h i j hi hj he hs
      rcases Nat.lt_trichotomy i j with hlt | heq | hlt
      · exact absurd ⟨i, j, hlt, by omega, hj, he, hs⟩ h
      · exact heq
      · exact absurd ⟨j, i, hlt, by omega, hi, he.symm, he ▸ hs⟩ h
    · rintro h ⟨i, j, h1, -, h3, h4, h5⟩
      have := h i j (by omega) h3 h4 h5
      omega
  unfold NAL_AtomAppearsTwice
  rw [Bool.or_eq_false_iff, Bool.and_eq_false_iff, Bool.and_eq_false_iff, Bool.and_eq_false_iff, hl]
  unfold Term.IsStatement Term.RelatesProducts Narsese.IsHigherOrder
  simp only [Bool.or_eq_false_iff, Bool.not_eq_false', Bool.and_eq_true, is_iff, is_false, decide_eq_false_iff_not]
  constructor
  · rintro ⟨h1, h2⟩
    refine ⟨fun ha hb => ?_, fun ha => ?_⟩
    · rcases h1 with (h | h) | h
      · exact absurd ha (by tauto)
      · exact absurd h (by tauto)
      · exact h
    · rcases h2 with h | h
      · exact absurd ha (by tauto)
      · exact h
  · rintro ⟨h1, h2⟩
    constructor
    · by_cases ha : n.Is (t.get 0) INHERITANCE ∨ n.Is (t.get 0) SIMILARITY
      · by_cases hb : n.Is (t.get 1) PRODUCT ∧ n.Is (t.get 3) PRODUCT ∧ n.Is (t.get 4) PRODUCT
        · exact .inl (.inr (by tauto))
        · exact .inr (h1 ha hb)
      · exact .inl (.inl (by tauto))
    · by_cases ha : n.Is (t.get 0) IMPLICATION ∨ n.Is (t.get 0) EQUIVALENCE
      · exact .inr (h2 ha)
      · exact .inl (by tauto)

/-- The number of positions from `COMPOUND_TERM_SIZE_MAX - k` on with the property. -/
def countFrom (p : Nat → Bool) : Nat → Nat
  | 0 => 0
  | k + 1 => (if p (COMPOUND_TERM_SIZE_MAX - (k + 1)) then 1 else 0) + countFrom p k

theorem countFrom_mono (p : Nat → Bool) {k l : Nat} (h : k ≤ l) : countFrom p k ≤ countFrom p l := by
  induction l with
  | zero => rw [Nat.le_zero.1 h]
  | succ l ih =>
    rcases Nat.lt_or_ge k (l + 1) with h1 | h1
    · exact (ih (by omega)).trans (by rw [countFrom]; omega)
    · rw [show k = l + 1 by omega]

theorem countFrom_iff (p : Nat → Bool) (m : Nat) : ∀ (k : Nat), k ≤ COMPOUND_TERM_SIZE_MAX → (m + 1 ≤ countFrom p k ↔
    ∃ i, COMPOUND_TERM_SIZE_MAX - k ≤ i ∧ i < COMPOUND_TERM_SIZE_MAX ∧ p i = true ∧
      m ≤ countFrom p (COMPOUND_TERM_SIZE_MAX - 1 - i))
  | 0, _ => by
    constructor
    · intro h; rw [countFrom] at h; omega
    · rintro ⟨i, h1, h2, -⟩; omega
  | k + 1, hk => by
    have ih := countFrom_iff p m k (by omega)
    have hpos : COMPOUND_TERM_SIZE_MAX - 1 - (COMPOUND_TERM_SIZE_MAX - (k + 1)) = k := by omega
    rw [countFrom]
    by_cases hp : p (COMPOUND_TERM_SIZE_MAX - (k + 1)) = true
    · rw [if_pos hp]
      constructor
      · intro h
        exact ⟨_, Nat.le_refl _, by omega, hp, by rw [hpos]; omega⟩
      · rintro ⟨i, h1, h2, h3, h4⟩
        have := countFrom_mono p (k := COMPOUND_TERM_SIZE_MAX - 1 - i) (l := k) (by omega)
        omega
    · rw [if_neg hp, Nat.zero_add, ih]
      constructor
      · rintro ⟨i, h1, h2, h3⟩
        exact ⟨i, by omega, h2, h3⟩
      · rintro ⟨i, h1, h2, h3, h4⟩
        refine ⟨i, ?_, h2, h3, h4⟩
        rcases Nat.lt_or_ge (COMPOUND_TERM_SIZE_MAX - (k + 1)) i with h | h
        · omega
        · have : i = COMPOUND_TERM_SIZE_MAX - (k + 1) := by omega
          subst this
          exact absurd h3 hp

theorem nestedHOLLoop_iff (t : Term) : ∀ (k a b : Nat), a < 2 → b ≤ 2 → (nestedHOLLoop n t k a b = true ↔
    2 ≤ a + countFrom (fun i => Narsese_copulaEquals n (t.get i) IMPLICATION || Narsese_copulaEquals n (t.get i) EQUIVALENCE) k ∨
    3 ≤ b + countFrom (fun i => Narsese_copulaEquals n (t.get i) TEMPORAL_IMPLICATION) k)
  | 0, a, b, ha, hb => by
    simp only [nestedHOLLoop, countFrom, Bool.false_eq_true, false_iff]
    omega
  | k + 1, a, b, ha, hb => by
    rw [nestedHOLLoop]
    simp only [countFrom]
    have ih := nestedHOLLoop_iff t k
    rcases Bool.eq_false_or_eq_true (Narsese_copulaEquals n (t.get (COMPOUND_TERM_SIZE_MAX - (k + 1))) IMPLICATION ||
      Narsese_copulaEquals n (t.get (COMPOUND_TERM_SIZE_MAX - (k + 1))) EQUIVALENCE) with h1 | h1 <;>
    rcases Bool.eq_false_or_eq_true (Narsese_copulaEquals n (t.get (COMPOUND_TERM_SIZE_MAX - (k + 1))) TEMPORAL_IMPLICATION)
      with h2 | h2 <;>
    simp only [h1, h2, if_true, if_false, Bool.false_eq_true]
    · by_cases hx : a + 1 ≥ 2 ∨ b + 1 > 2
      · rw [if_pos hx]; simp only [true_iff]; omega
      · rw [if_neg hx, ih _ _ (by omega) (by omega)]; omega
    · by_cases hx : a + 1 ≥ 2 ∨ b > 2
      · rw [if_pos hx]; simp only [true_iff]; omega
      · rw [if_neg hx, ih _ _ (by omega) hb]; omega
    · by_cases hx : a ≥ 2 ∨ b + 1 > 2
      · rw [if_pos hx]; simp only [true_iff]; omega
      · rw [if_neg hx, ih _ _ ha (by omega)]; omega
    · rw [if_neg (by omega), ih _ _ ha hb, Nat.zero_add, Nat.zero_add]

theorem nestedHOL_iff (t : Term) : NAL_NestedHOLStatement n t = false ↔
    (∀ i j, i < COMPOUND_TERM_SIZE_MAX → j < COMPOUND_TERM_SIZE_MAX → n.IsHigherOrder (t.get i) →
      n.IsHigherOrder (t.get j) → i = j) ∧
    (∀ i j k, i < j → j < k → k < COMPOUND_TERM_SIZE_MAX → n.Is (t.get i) TEMPORAL_IMPLICATION →
      n.Is (t.get j) TEMPORAL_IMPLICATION → ¬ n.Is (t.get k) TEMPORAL_IMPLICATION) := by
  unfold NAL_NestedHOLStatement
  rw [← Bool.not_eq_true, nestedHOLLoop_iff t _ 0 0 (by omega) (by omega), Nat.zero_add, Nat.zero_add, not_or]
  refine and_congr ?_ ?_
  · rw [countFrom_iff _ 1 _ (Nat.le_refl _)]
    simp only [Bool.or_eq_true, is_iff]
    constructor
    · intro h
      have key : ∀ i j, i < j → j < COMPOUND_TERM_SIZE_MAX → n.IsHigherOrder (t.get i) → n.IsHigherOrder (t.get j) → False := by
        intro i j hij hj hi' hj'
        refine h ⟨i, by omega, by omega, hi', ?_⟩
        rw [countFrom_iff _ 0 _ (by omega)]
        simp only [Bool.or_eq_true, is_iff]
        exact ⟨j, by omega, hj, hj', Nat.zero_le _⟩
      intro i j hi hj hi' hj'
      rcases Nat.lt_trichotomy i j with hlt | heq | hlt
      · exact (key i j hlt hj hi' hj').elim
      · exact heq
      · exact (key j i hlt hi hj' hi').elim
    · rintro h ⟨i, -, hi, hi', hc⟩
      rw [countFrom_iff _ 0 _ (by omega)] at hc
      simp only [Bool.or_eq_true, is_iff] at hc
      obtain ⟨j, h1, h2, h3, -⟩ := hc
      have := h i j hi h2 hi' h3
      omega
  · rw [countFrom_iff _ 2 _ (Nat.le_refl _)]
    simp only [is_iff]
    constructor
    · intro h i j k hij hjk hk h1 h2 h3
      refine h ⟨i, by omega, by omega, h1, ?_⟩
      rw [countFrom_iff _ 1 _ (by omega)]
      simp only [is_iff]
      refine ⟨j, by omega, by omega, h2, ?_⟩
      rw [countFrom_iff _ 0 _ (by omega)]
      simp only [is_iff]
      exact ⟨k, by omega, hk, h3, Nat.zero_le _⟩
    · rintro h ⟨i, -, hi, h1, hc⟩
      rw [countFrom_iff _ 1 _ (by omega)] at hc
      simp only [is_iff] at hc
      obtain ⟨j, hj1, hj2, h2, hc⟩ := hc
      rw [countFrom_iff _ 0 _ (by omega)] at hc
      simp only [is_iff] at hc
      obtain ⟨k, hk1, hk2, h3, -⟩ := hc
      exact h i j k (by omega) (by omega) hk2 h1 h2 h3

theorem inhOrSim_iff (t : Term) : NAL_InhOrSimHasDepVar n t = false ↔
    (t.IsStatement n → ∀ i, i < COMPOUND_TERM_SIZE_MAX → Variable_isDependentVariable n (t.get i) = false) := by
  unfold NAL_InhOrSimHasDepVar Variable_hasVariable Term.IsStatement
  simp only [Bool.false_and, Bool.true_and, Bool.false_or, Bool.or_false]
  rw [Bool.and_eq_false_iff, List.any_eq_false, Bool.or_eq_false_iff, is_false, is_false]
  simp only [List.mem_range, Bool.not_eq_true]
  constructor
  · rintro (h | h) hs
    · exact absurd hs (by tauto)
    · exact h
  · intro h
    by_cases hs : n.Is (t.get 0) INHERITANCE ∨ n.Is (t.get 0) SIMILARITY
    · exact .inr (h hs)
    · exact .inl (by tauto)

theorem junctionLoop_ok (t : Term) : ∀ (k : Nat), k ≤ COMPOUND_TERM_SIZE_MAX → ∀ {b : Bool}, junctionLoop n t k = .ok b →
    (b = false ↔ ∀ i, COMPOUND_TERM_SIZE_MAX - k ≤ i → i < COMPOUND_TERM_SIZE_MAX → n.IsJunction (t.get i) →
      ¬ n.IsJunction (t.get (2 * i + 2)))
  | 0, _, b, e => by
    rw [junctionLoop] at e
    cases e
    simp only [true_iff]
    intro i h1 h2
    omega
  | k + 1, hk, b, e => by
    have split : ∀ {P : Nat → Prop}, (∀ i, COMPOUND_TERM_SIZE_MAX - (k + 1) ≤ i → i < COMPOUND_TERM_SIZE_MAX → P i) ↔
        P (COMPOUND_TERM_SIZE_MAX - (k + 1)) ∧ ∀ i, COMPOUND_TERM_SIZE_MAX - k ≤ i → i < COMPOUND_TERM_SIZE_MAX → P i := by
      intro P
      constructor
      · intro h
        exact ⟨h _ (Nat.le_refl _) (by omega), fun i h1 h2 => h i (by omega) h2⟩
      · rintro ⟨h1, h2⟩ i h3 h4
        rcases Nat.lt_or_ge (COMPOUND_TERM_SIZE_MAX - (k + 1)) i with h | h
        · exact h2 i (by omega) h4
        · rw [show i = COMPOUND_TERM_SIZE_MAX - (k + 1) by omega]; exact h1
    rw [junctionLoop] at e
    rw [split]
    have hi2 : (COMPOUND_TERM_SIZE_MAX - (k + 1) + 1) * 2 + 1 - 1 = 2 * (COMPOUND_TERM_SIZE_MAX - (k + 1)) + 2 := by omega
    by_cases hj : (Narsese_copulaEquals n (t.get (COMPOUND_TERM_SIZE_MAX - (k + 1))) CONJUNCTION ||
        Narsese_copulaEquals n (t.get (COMPOUND_TERM_SIZE_MAX - (k + 1))) DISJUNCTION) = true
    · simp only [hj, if_true] at e
      obtain ⟨child, hc, e⟩ := R.bind_eq_ok.1 e
      have hchild : child = t.get (2 * (COMPOUND_TERM_SIZE_MAX - (k + 1)) + 2) := by
        rw [hi2] at hc
        unfold Term.read at hc
        unfold Term.get
        cases hx : t.atoms[2 * (COMPOUND_TERM_SIZE_MAX - (k + 1)) + 2]? with
        | none => rw [hx] at hc; cases hc
        | some a =>
          rw [hx] at hc
          cases hc
          simp [hx]
      have hj' : n.IsJunction (t.get (COMPOUND_TERM_SIZE_MAX - (k + 1))) := by
        rw [Bool.or_eq_true, is_iff, is_iff] at hj; exact hj
      by_cases hr : (Narsese_copulaEquals n child CONJUNCTION || Narsese_copulaEquals n child DISJUNCTION) = true
      · rw [if_pos hr] at e
        cases e
        rw [Bool.or_eq_true, is_iff, is_iff] at hr
        simp only [Bool.true_eq_false, false_iff]
        intro h
        exact h.1 hj' (hchild ▸ hr)
      · rw [if_neg hr] at e
        rw [junctionLoop_ok t k (by omega) e]
        rw [Bool.or_eq_true, is_iff, is_iff] at hr
        exact ⟨fun h => ⟨fun _ => hchild ▸ hr, h⟩, And.right⟩
    · simp only [hj, if_false, Bool.false_eq_true] at e
      rw [junctionLoop_ok t k (by omega) e]
      rw [Bool.or_eq_true, is_iff, is_iff] at hj
      exact ⟨fun h => ⟨fun hx => absurd hx hj, h⟩, And.right⟩

theorem invalidSetOp_iff (t : Term) : InvalidSetOp n t = false ↔ (n.Is (t.get 0) INHERITANCE →
    ¬ (n.Is (t.get 1) EXT_INTERSECTION ∧ n.Is (t.get 3) EXT_SET ∧ n.Is (t.get 4) EXT_SET) ∧
    ¬ (n.Is (t.get 2) INT_INTERSECTION ∧ n.Is (t.get 5) INT_SET ∧ n.Is (t.get 6) INT_SET)) := by
  unfold InvalidSetOp
  rw [← Bool.not_eq_true]
  simp only [Bool.and_eq_true, Bool.or_eq_true, is_iff]
  tauto

theorem variableOnce_iff (t : Term) : NAL_IndepOrDepVariableAppearsOnce n t = false ↔ ∀ i, i < COMPOUND_TERM_SIZE_MAX →
    Variable_isIndependentVariable n (t.get i) = true ∨ Variable_isDependentVariable n (t.get i) = true →
    ∃ j, j < COMPOUND_TERM_SIZE_MAX ∧ j ≠ i ∧ t.get j = t.get i := by
  unfold NAL_IndepOrDepVariableAppearsOnce
  rw [List.any_eq_false]
  simp only [List.mem_range, Bool.and_eq_true, Bool.or_eq_true, Bool.not_eq_true', not_and, Bool.not_eq_false, List.any_eq_true,
    decide_eq_true_eq]
  refine forall_congr' fun i => imp_congr_right fun _ => imp_congr_right fun _ => exists_congr fun j => and_congr_right fun _ => ?_
  exact and_congr ⟨Ne.symm, Ne.symm⟩ ⟨Eq.symm, Eq.symm⟩

theorem startsWithOperation_iff : ∀ (fuel : Nat) (t : Term), t.tree.height ≤ fuel →
    (conjunctionHasLefthandOperation n fuel t = true ↔ StartsWithOperation n t)
  | 0, t, hh => by
    have h0 : t.get 0 = 0 := by
      by_contra h
      rw [tree_eq h] at hh
      simp [Tree.height] at hh
    simp only [conjunctionHasLefthandOperation, Bool.false_eq_true, false_iff]
    intro h
    cases h with
    | here h1 _ => exact h1.1 h0
    | deeper h1 _ => exact h1.1 h0
  | fuel + 1, t, hh => by
    rw [conjunctionHasLefthandOperation]
    by_cases hc : Narsese_copulaEquals n (t.get 0) CONJUNCTION = true
    · have hI := is_iff.1 hc
      have ih := startsWithOperation_iff fuel (Term_ExtractSubterm t 1) (by
        rw [extract_left hI.1]; rw [tree_eq hI.1] at hh; simp only [Tree.height] at hh; omega)
      simp only [hc, if_true]
      by_cases ho : Narsese_isOperation n (Term_ExtractSubterm t 1) = true
      · rw [if_pos ho]
        exact ⟨fun _ => .here hI ho, fun _ => rfl⟩
      · rw [if_neg ho]
        by_cases hl : Narsese_copulaEquals n ((Term_ExtractSubterm t 1).get 0) CONJUNCTION = true
        · rw [if_pos hl, ih]
          constructor
          · exact .deeper hI
          · intro h
            cases h with
            | here _ h2 => exact absurd h2 ho
            | deeper _ h2 => exact h2
        · rw [if_neg hl]
          simp only [Bool.false_eq_true, false_iff]
          intro h
          cases h with
          | here _ h2 => exact absurd h2 ho
          | deeper _ h2 =>
            cases h2 with
            | here h3 _ => exact hl (is_iff.2 h3)
            | deeper h3 _ => exact hl (is_iff.2 h3)
    · rw [if_neg hc]
      simp only [Bool.false_eq_true, false_iff]
      intro h
      cases h with
      | here h1 _ => exact hc (is_iff.2 h1)
      | deeper h1 _ => exact hc (is_iff.2 h1)

theorem lefthandOperation_iff (t : Term) : DeclarativeImplicationWithLefthandConjunctionWithLefthandOperation n t = false ↔
    (n.IsHigherOrder (t.get 0) → ¬ StartsWithOperation n (Term_ExtractSubterm t 1)) := by
  unfold DeclarativeImplicationWithLefthandConjunctionWithLefthandOperation Narsese.IsHigherOrder
  rw [← Bool.not_eq_true]
  simp only [Bool.and_eq_true, Bool.or_eq_true, is_iff]
  rw [startsWithOperation_iff _ _ ((height_le _).trans (Nat.le_succ _))]
  constructor
  · rintro h h1 h2
    refine h ⟨⟨h1, ?_⟩, h2⟩
    have : n.Is ((Term_ExtractSubterm t 1).get 0) CONJUNCTION := by
      cases h2 with
      | here h3 _ => exact h3
      | deeper h3 _ => exact h3
    rwa [extract_get_root] at this
  · rintro h ⟨⟨h1, -⟩, h2⟩
    exact h h1 h2

/-- **C50 (filters).** The test the system applies to the statements it derives accepts exactly the admissible ones. -/
theorem C50_filter {t : Term} {b : Bool} (e : NAL_Admissible n t = .ok b) : b = true ↔ Admissible n t := by
  unfold NAL_Admissible at e
  by_cases h1 : (NAL_AtomAppearsTwice n t || NAL_NestedHOLStatement n t || NAL_InhOrSimHasDepVar n t) = true
  · rw [if_pos h1] at e
    cases e
    simp only [Bool.false_eq_true, false_iff]
    intro h
    have a1 := (atomAppearsTwice_iff t).2 ⟨h.once, h.sides⟩
    have a2 := (nestedHOL_iff t).2 ⟨h.flat, h.temporal⟩
    have a3 := (inhOrSim_iff t).2 h.independent
    rw [a1, a2, a3] at h1
    cases h1
  · rw [if_neg h1] at e
    rw [Bool.not_eq_true, Bool.or_eq_false_iff, Bool.or_eq_false_iff, atomAppearsTwice_iff, nestedHOL_iff, inhOrSim_iff] at h1
    obtain ⟨⟨⟨a1, a2⟩, a3, a4⟩, a5⟩ := h1
    obtain ⟨j, hj, e⟩ := R.bind_eq_ok.1 e
    have hj' := junctionLoop_ok t _ (Nat.le_refl _) hj
    have hb : (!j && !InvalidSetOp n t && !NAL_IndepOrDepVariableAppearsOnce n t &&
      !DeclarativeImplicationWithLefthandConjunctionWithLefthandOperation n t) = b := by injection e
    rw [← hb, Bool.and_eq_true, Bool.and_eq_true, Bool.and_eq_true, Bool.not_eq_true', Bool.not_eq_true', Bool.not_eq_true',
      Bool.not_eq_true', hj', invalidSetOp_iff, variableOnce_iff, lefthandOperation_iff]
    constructor
    · rintro ⟨⟨⟨b1, b2⟩, b3⟩, b4⟩
      exact ⟨a1, a2, a3, a4, a5, fun i => b1 i (by omega), b2, b3, b4⟩
    · intro h
      exact ⟨⟨⟨fun i _ => h.leftNested i, h.sets⟩, h.twice⟩, h.operation⟩

end ONA
