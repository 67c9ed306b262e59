import Verif.Spec.Rules
import Verif.Props.Term
import Verif.Props.Derived
/-
Matching the patterns of rules, and building conclusions.
-/
namespace ONA

theorem isMetaVar_ne {a : Atom} (h : isMetaVar a = true) : a ≠ 0 := by
  unfold isMetaVar at h
  split at h
  · simp only [Bool.and_eq_true, decide_eq_true_eq] at h
    exact h.1.1
  · cases h

theorem extract_zero {t : Term} {i : Nat} (hi : i < COMPOUND_TERM_SIZE_MAX) : (Term_ExtractSubterm t i).get 0 = t.get i :=
  (C28_extract t i).2.1 [] hi

/-- A subterm with a root is a tree. -/
theorem extract_rooted {t : Term} {j : Nat} (h : (Term_ExtractSubterm t j).get 0 ≠ 0) : (Term_ExtractSubterm t j).Closed := by
  intro k b hk
  obtain ⟨p, rfl⟩ := exists_path k
  have e : childPos (pathPos 0 p) b = pathPos 0 (p ++ [b]) := by rw [pathPos_append]; rfl
  rw [e] at hk
  have hp : Present t j (p ++ [b]) := by
    by_contra hp
    exact hk ((C28_extract t j).2.2 _ hp)
  rcases List.eq_nil_or_concat p with rfl | ⟨q, c, rfl⟩
  · exact h
  · have pre : ∀ (q : List Bool) (j : Nat) (r : List Bool), Present t j (q ++ r) → Present t j q := by
      intro q
      induction q with
      | nil =>
        intro j r hr
        exact hr.lt_root
      | cons x q ih => intro j r hr; exact ⟨hr.1, ih _ r hr.2⟩
    rw [List.concat_eq_append] at *
    have hq : Present t j (q ++ [c]) := pre _ _ _ hp
    rw [(C28_extract t j).2.1 _ hq]
    have last : ∀ (q : List Bool) (j : Nat) (c : Bool), Present t j (q ++ [c]) → t.get (pathPos j (q ++ [c])) ≠ 0 := by
      intro q
      induction q with
      | nil => intro j c h; exact h.1
      | cons x q ih => intro j c h; exact ih _ c h.2
    exact last q j c hq

/-- Extraction only depends on the nodes below the position. -/
theorem extract_congr {t t' : Term} {j : Nat} (h : ∀ p, t'.get (pathPos j p) = t.get (pathPos j p)) :
    Term_ExtractSubterm t' j = Term_ExtractSubterm t j := by
  have hp : ∀ (p r : List Bool), Present t' (pathPos j r) p ↔ Present t (pathPos j r) p := by
    intro p
    induction p with
    | nil => intro r; exact Iff.rfl
    | cons b p ih =>
      intro r
      have e : childPos (pathPos j r) b = pathPos j (r ++ [b]) := by rw [pathPos_append]; rfl
      show _ ∧ _ ↔ _ ∧ _
      rw [e, h, ih]
  apply Term.ext_get
  intro k _
  obtain ⟨p, rfl⟩ := exists_path k
  rw [extract_get, extract_get, h]
  have hh : Present t' j p ↔ Present t j p := hp p []
  by_cases hx : Present t j p
  · rw [if_pos hx, if_pos (hh.2 hx)]
  · rw [if_neg hx, if_neg (fun h => hx (hh.1 h))]

/-- Two ancestors of a node are ancestors of each other. -/
theorem pathPos_chain {i j : Nat} {p q : List Bool} (h : pathPos i p = pathPos j q) (hlt : i < j) :
    ∃ b r, j = pathPos i (b :: r) := by
  obtain ⟨u, rfl⟩ := exists_path i
  obtain ⟨v, rfl⟩ := exists_path j
  rw [← pathPos_append, ← pathPos_append] at h
  have h := pathPos_inj h
  rcases List.append_eq_append_iff.1 h with ⟨w, hw, -⟩ | ⟨w, hw, -⟩
  · subst hw
    cases w with
    | nil => rw [List.append_nil] at hlt; exact absurd hlt (Nat.lt_irrefl _)
    | cons b w => exact ⟨b, w, pathPos_append _ _ _⟩
  · subst hw
    rw [pathPos_append] at hlt
    exact absurd hlt (Nat.not_lt.2 (le_pathPos _ _))

/-! ### Premises -/

section
variable {n : Narsese} {p t : Term}

/-- After the first `m` positions of a pattern. -/
structure Matching (n : Narsese) (p t : Term) (m : Nat) (σ0 σ : Nat → Term) : Prop where
  keeps : ∀ a, (σ0 a).get 0 ≠ 0 → σ a = σ0 a
  closed : (∀ a, (σ0 a).get 0 ≠ 0 → (σ0 a).Closed) → ∀ a, (σ a).get 0 ≠ 0 → (σ a).Closed
  atoms : ∀ i < m, p.get i ≠ 0 → isMetaVar (p.get i) = false → t.get i = p.get i
  vars : ∀ i < m, isMetaVar (p.get i) = true → t.get i ≠ 0 → Term_ExtractSubterm t i = σ (p.get i).toNat
  terminator : ∀ i < m, isMetaVar (p.get i) = true → ¬ n.Is (t.get i) SET_TERMINATOR
  operation : ∀ i < m, isMetaVar (p.get i) = true → isMetaOp (p.get i) = true →
    Narsese_isOperation n (Term_ExtractSubterm t i) = true

theorem matchAtom_var {i : Nat} {σ σ' : Nat → Term} (hi : i < COMPOUND_TERM_SIZE_MAX) (hm : isMetaVar (p.get i) = true)
    (e : matchAtom n p t i σ = some σ') : σ' = upd σ (p.get i).toNat (Term_ExtractSubterm t i) ∧
      ((σ (p.get i).toNat).get 0 ≠ 0 → σ (p.get i).toNat = Term_ExtractSubterm t i) ∧
      ¬ n.Is (t.get i) SET_TERMINATOR ∧ (isMetaOp (p.get i) = true → Narsese_isOperation n (Term_ExtractSubterm t i) = true) := by
  unfold matchAtom at e
  dsimp only at e
  rw [if_neg (isMetaVar_ne hm), if_pos hm] at e
  by_cases h1 : ((decide ((σ (p.get i).toNat).get 0 ≠ 0) && decide (σ (p.get i).toNat ≠ Term_ExtractSubterm t i)) ||
      Narsese_copulaEquals n ((Term_ExtractSubterm t i).get 0) SET_TERMINATOR) = true
  · rw [if_pos h1] at e; cases e
  · rw [if_neg h1] at e
    rw [Bool.not_eq_true, Bool.or_eq_false_iff] at h1
    by_cases h2 : (isMetaOp (p.get i) && !Narsese_isOperation n (Term_ExtractSubterm t i)) = true
    · rw [if_pos h2] at e; cases e
    · rw [if_neg h2] at e
      cases e
      refine ⟨rfl, ?_, ?_, ?_⟩
      · intro h
        have := h1.1
        rw [Bool.and_eq_false_iff, decide_eq_false_iff_not, decide_eq_false_iff_not, not_not, not_not] at this
        exact this.resolve_left h
      · rw [← extract_zero hi, ← is_false]
        exact h1.2
      · intro h
        rw [h] at h2
        simpa using h2

theorem matchAtom_atom {i : Nat} {σ σ' : Nat → Term} (hm : isMetaVar (p.get i) = false)
    (e : matchAtom n p t i σ = some σ') : σ' = σ ∧ (p.get i ≠ 0 → t.get i = p.get i) := by
  unfold matchAtom at e
  dsimp only at e
  by_cases h0 : p.get i = 0
  · rw [if_pos h0] at e
    cases e
    exact ⟨rfl, fun h => absurd h0 h⟩
  · rw [if_neg h0, if_neg (by rw [hm]; simp)] at e
    by_cases h1 : t.get i ≠ p.get i
    · rw [if_pos h1] at e; cases e
    · rw [if_neg h1] at e
      cases e
      exact ⟨rfl, fun _ => not_not.1 h1⟩

theorem Matching.step {m : Nat} {σ0 σ σ' : Nat → Term} (hm : m < COMPOUND_TERM_SIZE_MAX) (h : Matching n p t m σ0 σ)
    (e : matchAtom n p t m σ = some σ') : Matching n p t (m + 1) σ0 σ' := by
  by_cases hv : isMetaVar (p.get m) = true
  · obtain ⟨rfl, h1, h2, h3⟩ := matchAtom_var hm hv e
    have same : ∀ a, (σ a).get 0 ≠ 0 → upd σ (p.get m).toNat (Term_ExtractSubterm t m) a = σ a := by
      intro a ha
      by_cases hx : a = (p.get m).toNat
      · subst hx; rw [upd_same]; exact (h1 ha).symm
      · rw [upd_other _ _ hx]
    refine ⟨fun a ha => ?_, fun hc a ha => ?_, fun i hi h4 h5 => ?_, fun i hi h4 h5 => ?_, fun i hi h4 => ?_, fun i hi h4 h5 => ?_⟩
    · have := h.keeps a ha
      rw [same a (by rw [this]; exact ha), this]
    · by_cases hx : a = (p.get m).toNat
      · subst hx
        rw [upd_same] at ha ⊢
        exact extract_rooted ha
      · rw [upd_other _ _ hx] at ha ⊢
        exact h.closed hc a ha
    · rcases Nat.lt_succ_iff_lt_or_eq.1 hi with hi | rfl
      · exact h.atoms i hi h4 h5
      · rw [hv] at h5; cases h5
    · rcases Nat.lt_succ_iff_lt_or_eq.1 hi with hi | rfl
      · have := h.vars i hi h4 h5
        rw [same _ (by rw [← this, extract_zero (Nat.lt_trans hi hm)]; exact h5)]
        exact this
      · rw [upd_same]
    · rcases Nat.lt_succ_iff_lt_or_eq.1 hi with hi | rfl
      · exact h.terminator i hi h4
      · exact h2
    · rcases Nat.lt_succ_iff_lt_or_eq.1 hi with hi | rfl
      · exact h.operation i hi h4 h5
      · exact h3 h5
  · rw [Bool.not_eq_true] at hv
    obtain ⟨rfl, h1⟩ := matchAtom_atom hv e
    refine ⟨h.keeps, h.closed, fun i hi h4 h5 => ?_, fun i hi h4 h5 => ?_, fun i hi h4 => ?_, fun i hi h4 h5 => ?_⟩
    · rcases Nat.lt_succ_iff_lt_or_eq.1 hi with hi | rfl
      · exact h.atoms i hi h4 h5
      · exact h1 h4
    · rcases Nat.lt_succ_iff_lt_or_eq.1 hi with hi | rfl
      · exact h.vars i hi h4 h5
      · rw [hv] at h4; cases h4
    · rcases Nat.lt_succ_iff_lt_or_eq.1 hi with hi | rfl
      · exact h.terminator i hi h4
      · rw [hv] at h4; cases h4
    · rcases Nat.lt_succ_iff_lt_or_eq.1 hi with hi | rfl
      · exact h.operation i hi h4 h5
      · rw [hv] at h4; cases h4

theorem matchLoop_matching {σ0 : Nat → Term} : ∀ (k : Nat) {σ σ' : Nat → Term}, k ≤ COMPOUND_TERM_SIZE_MAX →
    Matching n p t (COMPOUND_TERM_SIZE_MAX - k) σ0 σ → matchLoop n p t k σ = some σ' →
    Matching n p t COMPOUND_TERM_SIZE_MAX σ0 σ' := by
  intro k
  induction k with
  | zero => intro σ σ' _ h e; cases e; exact h
  | succ k ih =>
    intro σ σ' hk h e
    unfold matchLoop at e
    cases e1 : matchAtom n p t (COMPOUND_TERM_SIZE_MAX - (k + 1)) σ with
    | none => rw [e1] at e; cases e
    | some σ1 =>
      rw [e1] at e
      have := h.step (by omega) e1
      rw [show COMPOUND_TERM_SIZE_MAX - (k + 1) + 1 = COMPOUND_TERM_SIZE_MAX - k by omega] at this
      exact ih (by omega) this e

theorem matchPremise_matching {σ0 σ : Nat → Term} (e : matchPremise n p t σ0 = some σ) :
    Matching n p t COMPOUND_TERM_SIZE_MAX σ0 σ := by
  unfold matchPremise at e
  refine matchLoop_matching COMPOUND_TERM_SIZE_MAX (Nat.le_refl _) ?_ e
  rw [Nat.sub_self]
  exact ⟨fun _ _ => rfl, fun h => h, fun i hi => absurd hi (Nat.not_lt_zero _), fun i hi => absurd hi (Nat.not_lt_zero _),
    fun i hi => absurd hi (Nat.not_lt_zero _), fun i hi => absurd hi (Nat.not_lt_zero _)⟩

theorem meta_lt {i : Nat} (h : isMetaVar (p.get i) = true) : i < COMPOUND_TERM_SIZE_MAX := Term.lt_of_get_ne (isMetaVar_ne h)

/-- A later assignment which keeps what was found. -/
theorem Matching.instance {σ0 σ σ' : Nat → Term} (h : Matching n p t COMPOUND_TERM_SIZE_MAX σ0 σ)
    (hk : ∀ a, (σ a).get 0 ≠ 0 → σ' a = σ a) : PremiseInstance n p σ' t where
  atoms i h1 h2 := h.atoms i (Term.lt_of_get_ne h1) h1 h2
  vars i h1 h2 := by
    have := h.vars i (meta_lt h1) h1 h2
    rw [hk _ (by rw [← this, extract_zero (meta_lt h1)]; exact h2)]
    exact this
  terminator i h1 := h.terminator i (meta_lt h1) h1
  operation i h1 h2 := h.operation i (meta_lt h1) h1 h2

/-! ### Conclusions -/

/-- The atoms of a term as numbers. -/
def atomList (p : Term) : List Nat := p.atoms.toArray.toList.map BitVec.toNat

theorem atomList_get (p : Term) (i : Nat) : (atomList p)[i]?.getD 0 = (p.get i).toNat := by
  unfold atomList Term.get
  rw [List.getElem?_map]
  have : p.atoms[i]? = p.atoms.toArray.toList[i]? := by
    rw [Array.getElem?_toList, Vector.getElem?_toArray]
  rw [this]
  cases p.atoms.toArray.toList[i]? with
  | none => rfl
  | some a => rfl

/-- The numbers of the variables of the rule language. -/
def metaB (k : Nat) : Bool := Nat.ble 28 k && (Nat.ble k 39 || Nat.beq k 63)

theorem metaB_small : ((List.range 64).all fun k => isMetaVar (BitVec.ofNat 16 k) == metaB k) = true := by decide +kernel

theorem isMetaVar_eq (a : Atom) : isMetaVar a = metaB a.toNat := by
  by_cases h : a.toNat < 64
  · have := List.all_eq_true.1 metaB_small _ (List.mem_range.2 h)
    rw [BitVec.ofNat_toNat, BitVec.setWidth_eq] at this
    exact eq_of_beq this
  · have e : patternName a = [] := by
      unfold patternName
      have : (initialNames ++ [['S', 'E', 'L', 'F']]).length = 63 := by decide +kernel
      rw [List.getD_eq_getElem?_getD, List.getElem?_eq_none (by rw [this]; omega)]
      rfl
    have e2 : Nat.ble a.toNat 39 = false := by
      cases hb : Nat.ble a.toNat 39 with
      | false => rfl
      | true => have := Nat.le_of_ble_eq_true hb; omega
    have e3 : Nat.beq a.toNat 63 = false := by
      rw [Bool.eq_false_iff]; exact fun hb => (by have := Nat.eq_of_beq_eq_true hb; omega)
    unfold isMetaVar metaB
    rw [e, e2, e3, Bool.or_false, Bool.and_false]

/-- Nothing below the variables. -/
def flatL (l : List Nat) : Bool :=
  l.zipIdx.all fun x => Nat.beq x.2 0 || Nat.beq x.1 0 ||
    (!Nat.beq (l[(x.2 - 1) / 2]?.getD 0) 0 && !metaB (l[(x.2 - 1) / 2]?.getD 0))

/-- A pattern: nothing below its variables. -/
def flatB (p : Term) : Bool := flatL (atomList p)

theorem flatB_spec {p : Term} (h : flatB p = true) {i : Nat} {b : Bool} (hj : p.get (childPos i b) ≠ 0) :
    p.get i ≠ 0 ∧ isMetaVar (p.get i) = false := by
  unfold flatB flatL at h
  rw [List.all_eq_true] at h
  have hn : ((p.get (childPos i b)).toNat) ≠ 0 := fun h0 => hj (BitVec.eq_of_toNat_eq h0)
  have hg := atomList_get p (childPos i b)
  have hm : ((p.get (childPos i b)).toNat, childPos i b) ∈ (atomList p).zipIdx := by
    rw [List.mk_mem_zipIdx_iff_getElem?]
    cases hx : (atomList p)[childPos i b]? with
    | none => rw [hx] at hg; exact absurd hg.symm hn
    | some x => rw [hx] at hg; rw [← hg]; rfl
  have := h _ hm
  have e : (childPos i b - 1) / 2 = i := by
    unfold childPos
    split <;> omega
  have e0 : childPos i b ≠ 0 := by
    unfold childPos
    split <;> omega
  dsimp only at this
  rw [e, atomList_get, ← isMetaVar_eq] at this
  have b1 : Nat.beq (childPos i b) 0 = false := by
    rw [Bool.eq_false_iff]; exact fun hb => e0 (Nat.eq_of_beq_eq_true hb)
  have b2 : Nat.beq (p.get (childPos i b)).toNat 0 = false := by
    rw [Bool.eq_false_iff]; exact fun hb => hn (Nat.eq_of_beq_eq_true hb)
  rw [b1, b2, Bool.false_or, Bool.false_or, Bool.and_eq_true, Bool.not_eq_true', Bool.not_eq_true'] at this
  refine ⟨fun h0 => ?_, this.2⟩
  rw [h0] at this
  exact absurd this.1 (by decide)

theorem flat_below {p : Term} (h : flatB p = true) {i : Nat} (hi : isMetaVar (p.get i) = true) (b : Bool) (r : List Bool) :
    p.get (pathPos i (b :: r)) = 0 := by
  by_contra hx
  have : ∀ (r : List Bool) (k : Nat), p.get (pathPos k r) ≠ 0 → p.get k ≠ 0 := by
    intro r
    induction r with
    | nil => intro k hk; exact hk
    | cons b r ih => intro k hk; exact (flatB_spec h (ih _ hk)).1
  have := (flatB_spec h (this r _ hx)).2
  rw [hi] at this
  cases this

/-- After the first `m` positions of a conclusion. -/
structure Building (p : Term) (σ : Nat → Term) (m : Nat) (c : Term) : Prop where
  atoms : ∀ i < m, p.get i ≠ 0 → isMetaVar (p.get i) = false → c.get i = p.get i
  vars : ∀ i < m, isMetaVar (p.get i) = true → c.get i ≠ 0 → Term_ExtractSubterm c i = σ (p.get i).toNat
  roots : ∀ i < m, isMetaVar (p.get i) = true → c.get i = (σ (p.get i).toNat).get 0
  vals : ∀ i < m, isMetaVar (p.get i) = true → (σ (p.get i).toNat).get 0 ≠ 0 → ∀ q,
    c.get (pathPos i q) = (σ (p.get i).toNat).get (pathPos 0 q)
  nothing : ∀ k, c.get k ≠ 0 → (k < m ∧ p.get k ≠ 0) ∨ ∃ i < m, ∃ path, isMetaVar (p.get i) = true ∧ k = pathPos i path

theorem Building.step {σ : Nat → Term} {m : Nat} {c c' : Term} (hf : flatB p = true)
    (hc : ∀ a, (σ a).get 0 ≠ 0 → (σ a).Closed) (hm : m < COMPOUND_TERM_SIZE_MAX) (h : Building p σ m c)
    (e : conclusionAtom p σ m c = some c') : Building p σ (m + 1) c' := by
  -- what was written before is not below the position, and the position not below a variable
  have apart : p.get m ≠ 0 → ∀ i < m, isMetaVar (p.get i) = true → ∀ q r, pathPos i q ≠ pathPos m r := by
    intro h0 i hi hv q r he
    obtain ⟨b, w, rfl⟩ := pathPos_chain he hi
    exact h0 (flat_below hf hv b w)
  have later : ∀ i < m, ∀ r, i ≠ pathPos m r := fun i hi r he => absurd (he ▸ hi) (Nat.not_lt.2 (le_pathPos _ _))
  unfold conclusionAtom at e
  dsimp only at e
  by_cases h0 : p.get m = 0
  · rw [if_pos h0] at e
    cases e
    have no : isMetaVar (p.get m) = true → False := fun hx => isMetaVar_ne hx h0
    refine ⟨fun i hi h1 h2 => ?_, fun i hi h1 h2 => ?_, fun i hi h1 => ?_, fun i hi h1 h2 q => ?_, fun k hk => ?_⟩
    · rcases Nat.lt_succ_iff_lt_or_eq.1 hi with hi | rfl
      · exact h.atoms i hi h1 h2
      · exact absurd h0 h1
    · rcases Nat.lt_succ_iff_lt_or_eq.1 hi with hi | rfl
      · exact h.vars i hi h1 h2
      · exact (no h1).elim
    · rcases Nat.lt_succ_iff_lt_or_eq.1 hi with hi | rfl
      · exact h.roots i hi h1
      · exact (no h1).elim
    · rcases Nat.lt_succ_iff_lt_or_eq.1 hi with hi | rfl
      · exact h.vals i hi h1 h2 q
      · exact (no h1).elim
    · rcases h.nothing k hk with h1 | ⟨i, hi, path, h1⟩
      · exact Or.inl ⟨Nat.lt_succ_of_lt h1.1, h1.2⟩
      · exact Or.inr ⟨i, Nat.lt_succ_of_lt hi, path, h1⟩
  rw [if_neg h0] at e
  by_cases hv : isMetaVar (p.get m) = true
  · rw [if_pos hv] at e
    cases ho : Term_OverrideSubterm c m (σ (p.get m).toNat) with
    | mk ok t =>
      rw [ho] at e
      cases ok with
      | false => cases e
      | true =>
        cases e
        obtain ⟨-, o2, o3⟩ := C28_override c m (σ (p.get m).toNat)
        rw [ho] at o2 o3
        have root : c'.get m = (σ (p.get m).toNat).get 0 := o2 rfl [] (show 0 < _ by decide)
        have other : ∀ k, (∀ q, k ≠ pathPos m q) → c'.get k = c.get k := fun k hk => o3 k fun q _ => hk q
        refine ⟨fun i hi h1 h2 => ?_, fun i hi h1 h2 => ?_, fun i hi h1 => ?_, fun i hi h1 h2 q => ?_, fun k hk => ?_⟩
        · rcases Nat.lt_succ_iff_lt_or_eq.1 hi with hi | rfl
          · show c'.get i = _
            rw [other i (later i hi)]
            exact h.atoms i hi h1 h2
          · rw [hv] at h2; cases h2
        · rcases Nat.lt_succ_iff_lt_or_eq.1 hi with hi | rfl
          · have he : Term_ExtractSubterm c' i = Term_ExtractSubterm c i :=
              extract_congr fun q => other _ fun r => apart h0 i hi h1 q r
            show Term_ExtractSubterm c' i = _
            rw [he]
            refine h.vars i hi h1 ?_
            rw [← other i (later i hi)]
            exact h2
          · have hcl := hc (p.get i).toNat (by rw [← root]; exact h2)
            have hem : c.EmptyBelow i := by
              intro b r
              by_contra hx
              rcases h.nothing _ hx with ⟨h3, -⟩ | ⟨j, hj, q, h3, h4⟩
              · exact absurd h3 (Nat.not_lt.2 (le_pathPos _ _))
              · exact apart h0 j hj h3 q _ h4.symm
            have := (C28_roundtrip c i (σ (p.get i).toNat) hcl hem (by rw [ho])).1
            rw [ho] at this
            exact this
        · rcases Nat.lt_succ_iff_lt_or_eq.1 hi with hi | rfl
          · show c'.get i = _
            rw [other i (later i hi)]
            exact h.roots i hi h1
          · exact root
        · rcases Nat.lt_succ_iff_lt_or_eq.1 hi with hi | rfl
          · show c'.get _ = _
            rw [other _ fun r => apart h0 i hi h1 q r]
            exact h.vals i hi h1 h2 q
          · by_cases hq : Present (σ (p.get i).toNat) 0 q
            · exact o2 rfl q hq
            · have hz : (σ (p.get i).toNat).get (pathPos 0 q) = 0 := by
                by_contra hx
                exact hq (present_of_closed (hc _ h2) (by decide) hx)
              rw [hz]
              show c'.get _ = _
              rw [o3 _ fun r hr he => hq (by
                have := pathPos_inj (i := i) he
                rw [this]
                exact hr)]
              cases q with
              | nil => exact absurd (show 0 < COMPOUND_TERM_SIZE_MAX by decide) hq
              | cons b q =>
                by_contra hx
                rcases h.nothing _ hx with ⟨h3, -⟩ | ⟨j, hj, r, h3, h4⟩
                · exact absurd h3 (Nat.not_lt.2 (le_pathPos _ _))
                · exact apart h0 j hj h3 r _ h4.symm
        · by_cases hq : ∃ q, k = pathPos m q
          · obtain ⟨q, hq⟩ := hq
            exact Or.inr ⟨m, Nat.lt_succ_self m, q, hv, hq⟩
          · have hk : c'.get k ≠ 0 := hk
            rw [other k fun q he => hq ⟨q, he⟩] at hk
            rcases h.nothing k hk with h1 | ⟨i, hi, path, h1⟩
            · exact Or.inl ⟨Nat.lt_succ_of_lt h1.1, h1.2⟩
            · exact Or.inr ⟨i, Nat.lt_succ_of_lt hi, path, h1⟩
  · rw [if_neg hv] at e
    cases e
    rw [Bool.not_eq_true] at hv
    have other : ∀ k, k ≠ m → (c.put m (p.get m)).get k = c.get k := fun k hk => Term.get_put_ne _ _ hk
    refine ⟨fun i hi h1 h2 => ?_, fun i hi h1 h2 => ?_, fun i hi h1 => ?_, fun i hi h1 h2 q => ?_, fun k hk => ?_⟩
    · rcases Nat.lt_succ_iff_lt_or_eq.1 hi with hi | rfl
      · rw [other i (Nat.ne_of_lt hi)]
        exact h.atoms i hi h1 h2
      · exact Term.get_put_same _ _ hm
    · rcases Nat.lt_succ_iff_lt_or_eq.1 hi with hi | rfl
      · have he : Term_ExtractSubterm (c.put m (p.get m)) i = Term_ExtractSubterm c i :=
          extract_congr fun q => other _ fun he => apart h0 i hi h1 q [] he
        rw [he]
        refine h.vars i hi h1 ?_
        rw [← other i (Nat.ne_of_lt hi)]
        exact h2
      · rw [hv] at h1; cases h1
    · rcases Nat.lt_succ_iff_lt_or_eq.1 hi with hi | rfl
      · rw [other i (Nat.ne_of_lt hi)]
        exact h.roots i hi h1
      · rw [hv] at h1; cases h1
    · rcases Nat.lt_succ_iff_lt_or_eq.1 hi with hi | rfl
      · rw [other _ fun he => apart h0 i hi h1 q [] he]
        exact h.vals i hi h1 h2 q
      · rw [hv] at h1; cases h1
    · by_cases hq : k = m
      · subst hq
        exact Or.inl ⟨Nat.lt_succ_self k, h0⟩
      · rw [other k hq] at hk
        rcases h.nothing k hk with h1 | ⟨i, hi, path, h1⟩
        · exact Or.inl ⟨Nat.lt_succ_of_lt h1.1, h1.2⟩
        · exact Or.inr ⟨i, Nat.lt_succ_of_lt hi, path, h1⟩

theorem conclusionLoop_building {σ : Nat → Term} (hf : flatB p = true) (hc : ∀ a, (σ a).get 0 ≠ 0 → (σ a).Closed) :
    ∀ (k : Nat) {c c' : Term}, k ≤ COMPOUND_TERM_SIZE_MAX → Building p σ (COMPOUND_TERM_SIZE_MAX - k) c →
      conclusionLoop p σ k c = some c' → Building p σ COMPOUND_TERM_SIZE_MAX c' := by
  intro k
  induction k with
  | zero => intro c c' _ h e; cases e; exact h
  | succ k ih =>
    intro c c' hk h e
    unfold conclusionLoop at e
    cases e1 : conclusionAtom p σ (COMPOUND_TERM_SIZE_MAX - (k + 1)) c with
    | none => rw [e1] at e; cases e
    | some c1 =>
      rw [e1] at e
      have := h.step hf hc (by omega) e1
      rw [show COMPOUND_TERM_SIZE_MAX - (k + 1) + 1 = COMPOUND_TERM_SIZE_MAX - k by omega] at this
      exact ih (by omega) this e

theorem buildConclusion_building {σ : Nat → Term} {c : Term} (hf : flatB p = true)
    (hc : ∀ a, (σ a).get 0 ≠ 0 → (σ a).Closed) (e : buildConclusion p σ = some c) :
    Building p σ COMPOUND_TERM_SIZE_MAX c := by
  unfold buildConclusion at e
  refine conclusionLoop_building hf hc COMPOUND_TERM_SIZE_MAX (Nat.le_refl _) ?_ e
  rw [Nat.sub_self]
  exact ⟨fun i hi => absurd hi (Nat.not_lt_zero _), fun i hi => absurd hi (Nat.not_lt_zero _),
    fun i hi => absurd hi (Nat.not_lt_zero _), fun i hi => absurd hi (Nat.not_lt_zero _), fun k hk => absurd (Term.get_zero k) hk⟩

theorem Building.instance {σ : Nat → Term} {c : Term} (h : Building p σ COMPOUND_TERM_SIZE_MAX c) : ConclusionInstance p σ c where
  atoms i h1 h2 := h.atoms i (Term.lt_of_get_ne h1) h1 h2
  vars i h1 h2 := h.vars i (meta_lt h1) h1 h2
  roots i h1 := h.roots i (meta_lt h1) h1
  nothing k hk := by
    rcases h.nothing k hk with h1 | ⟨i, _, path, h1⟩
    · exact Or.inl h1.2
    · exact Or.inr ⟨i, path, h1⟩

end

set_option maxRecDepth 100000 in
theorem rules_flat : nalRules.all (fun r => flatB r.conclusion) = true := by decide +kernel

set_option maxRecDepth 100000 in
theorem reductions_flat : nalReductions.all (fun r => flatB r.2) = true := by decide +kernel

section
variable {n : Narsese}

theorem rule_flat {r : Rule} (h : r ∈ nalRules) : flatB r.conclusion = true := List.all_eq_true.1 rules_flat r h

/-- A rule which applies concludes what it says. -/
theorem ruleConclusion_concludes {r : Rule} (hr : r ∈ nalRules) {t1 t2 c : Term} {double : Bool}
    (e : ruleConclusion n r t1 t2 double = some c) : r.Concludes n t1 t2 double c := by
  have h0 : ∀ a : Nat, ((fun _ => Term.zero : Nat → Term) a).get 0 ≠ 0 → ((fun _ => Term.zero : Nat → Term) a).Closed :=
    fun a h => absurd (Term.get_zero 0) h
  unfold ruleConclusion at e
  cases h2 : r.premise2 with
  | none =>
    rw [h2] at e
    cases double with
    | true => cases e
    | false =>
      simp only [Bool.false_eq_true, if_false] at e
      cases e1 : matchPremise n r.premise1 t1 (fun _ => Term.zero) with
      | none => rw [e1] at e; cases e
      | some σ =>
        rw [e1] at e
        have m1 := matchPremise_matching e1
        have b := buildConclusion_building (rule_flat hr) (m1.closed h0) e
        exact ⟨σ, m1.instance fun _ _ => rfl, (by rw [h2]; exact iff_of_false (by decide) (by decide)),
          fun p hp => (by rw [h2] at hp; cases hp), b.instance⟩
  | some p2 =>
    rw [h2] at e
    cases double with
    | false => cases e
    | true =>
      simp only [Bool.not_true, Bool.false_eq_true, if_false] at e
      cases e1 : matchPremise n r.premise1 t1 (fun _ => Term.zero) with
      | none => rw [e1] at e; cases e
      | some σ =>
        rw [e1] at e
        dsimp only at e
        cases e2 : matchPremise n p2 t2 σ with
        | none => rw [e2] at e; cases e
        | some σ' =>
          rw [e2] at e
          have m1 := matchPremise_matching e1
          have m2 := matchPremise_matching e2
          have b := buildConclusion_building (rule_flat hr) (m2.closed (m1.closed h0)) e
          exact ⟨σ', m1.instance m2.keeps, (by rw [h2]; exact iff_of_true rfl rfl),
            fun p hp => (by rw [h2] at hp; cases hp; exact m2.instance fun _ _ => rfl), b.instance⟩

/-- What the reductions do. -/
theorem reduce_reduces (c : Term) : Reduces n c (RuleTable_Reduce n c) := by
  unfold RuleTable_Reduce
  cases e : nalReductions.findSome? fun r => applyReduction n r c with
  | none => exact .inl rfl
  | some t =>
    right
    obtain ⟨red, hm, e1⟩ := List.exists_of_findSome?_eq_some e
    refine ⟨red, hm, ?_⟩
    unfold applyReduction at e1
    cases e2 : matchPremise n red.1 c (fun _ => Term.zero) with
    | none => rw [e2] at e1; cases e1
    | some σ =>
      rw [e2] at e1
      have m1 := matchPremise_matching e2
      have b := buildConclusion_building (List.all_eq_true.1 reductions_flat red hm)
        (m1.closed fun a h => absurd (Term.get_zero 0) h) e1
      exact ⟨σ, m1.instance fun _ _ => rfl, b.instance⟩

/-! ### Rules apply -/

/-- If the pattern can be matched with `τ`, each step succeeds. -/
theorem matchAtom_complete {p t : Term} {τ σ : Nat → Term} (h : PremiseInstance n p τ t) (hf : t.FillsPattern p)
    (hs : ∀ a, (σ a).get 0 ≠ 0 → σ a = τ a) {i : Nat} (hi : i < COMPOUND_TERM_SIZE_MAX) :
    ∃ σ', matchAtom n p t i σ = some σ' ∧ (∀ a, (σ' a).get 0 ≠ 0 → σ' a = τ a) ∧ (∀ a, (σ a).get 0 ≠ 0 → σ' a = σ a) ∧
      (isMetaVar (p.get i) = true → (σ' (p.get i).toNat).get 0 ≠ 0) := by
  unfold matchAtom
  dsimp only
  by_cases h0 : p.get i = 0
  · rw [if_pos h0]
    exact ⟨σ, rfl, hs, fun _ _ => rfl, fun hv => absurd h0 (isMetaVar_ne hv)⟩
  rw [if_neg h0]
  by_cases hv : isMetaVar (p.get i) = true
  · rw [if_pos hv]
    have hx := h.vars i hv (hf i hv)
    have hz : (Term_ExtractSubterm t i).get 0 ≠ 0 := by rw [extract_zero hi]; exact hf i hv
    have h1 : ((decide ((σ (p.get i).toNat).get 0 ≠ 0) && decide (σ (p.get i).toNat ≠ Term_ExtractSubterm t i)) ||
        Narsese_copulaEquals n ((Term_ExtractSubterm t i).get 0) SET_TERMINATOR) = false := by
      rw [Bool.or_eq_false_iff, Bool.and_eq_false_iff, decide_eq_false_iff_not, decide_eq_false_iff_not, not_not, not_not]
      constructor
      · by_cases hn : (σ (p.get i).toNat).get 0 = 0
        · exact .inl hn
        · exact .inr ((hs _ hn).trans hx.symm)
      · rw [is_false, extract_zero hi]
        exact h.terminator i hv
    have h2 : (isMetaOp (p.get i) && !Narsese_isOperation n (Term_ExtractSubterm t i)) = false := by
      cases ho : isMetaOp (p.get i) with
      | false => rfl
      | true => rw [h.operation i hv ho]; rfl
    rw [if_neg (by rw [h1]; decide), if_neg (by rw [h2]; decide)]
    refine ⟨_, rfl, fun a ha => ?_, fun a ha => ?_, fun _ => ?_⟩
    · by_cases hx' : a = (p.get i).toNat
      · subst hx'; rw [upd_same]; exact hx
      · rw [upd_other _ _ hx'] at ha ⊢; exact hs a ha
    · by_cases hx' : a = (p.get i).toNat
      · subst hx'; rw [upd_same, hx]; exact (hs _ ha).symm
      · rw [upd_other _ _ hx']
    · rw [upd_same]; exact hz
  · rw [if_neg hv, if_neg (by rw [not_not]; exact h.atoms i h0 (Bool.not_eq_true _ ▸ hv))]
    exact ⟨σ, rfl, hs, fun _ _ => rfl, fun hx => absurd hx hv⟩

theorem matchLoop_complete {p t : Term} {τ : Nat → Term} (h : PremiseInstance n p τ t) (hf : t.FillsPattern p) :
    ∀ (k : Nat) {σ : Nat → Term}, k ≤ COMPOUND_TERM_SIZE_MAX → (∀ a, (σ a).get 0 ≠ 0 → σ a = τ a) →
      (∀ i < COMPOUND_TERM_SIZE_MAX - k, isMetaVar (p.get i) = true → (σ (p.get i).toNat).get 0 ≠ 0) →
      ∃ σ', matchLoop n p t k σ = some σ' ∧ (∀ a, (σ' a).get 0 ≠ 0 → σ' a = τ a) ∧ (∀ a, (σ a).get 0 ≠ 0 → σ' a = σ a) ∧
        ∀ i, isMetaVar (p.get i) = true → (σ' (p.get i).toNat).get 0 ≠ 0 := by
  intro k
  induction k with
  | zero => intro σ _ hs hm; exact ⟨σ, rfl, hs, fun _ _ => rfl, fun i hi => hm i (meta_lt hi) hi⟩
  | succ k ih =>
    intro σ hk hs hm
    obtain ⟨σ1, e1, h1, h2, h3⟩ := matchAtom_complete h hf hs (i := COMPOUND_TERM_SIZE_MAX - (k + 1)) (by omega)
    obtain ⟨σ2, e2, h4, h5, h6⟩ := ih (σ := σ1) (by omega) h1 fun i hi hv => by
      by_cases hx : i < COMPOUND_TERM_SIZE_MAX - (k + 1)
      · have := hm i hx hv
        rw [h2 _ this]
        exact this
      · have : i = COMPOUND_TERM_SIZE_MAX - (k + 1) := by omega
        subst this
        exact h3 hv
    refine ⟨σ2, ?_, h4, fun a ha => ?_, h6⟩
    · unfold matchLoop
      rw [e1]
      exact e2
    · have := h2 a ha
      rw [h5 a (by rw [this]; exact ha), this]

/-- The conclusion can be built if it fits. -/
theorem conclusionAtom_complete {p c t : Term} {σ : Nat → Term} (hr : ConclusionInstance p σ t)
    (hn : ∀ i, isMetaVar (p.get i) = true → (σ (p.get i).toNat).get 0 ≠ 0)
    {i : Nat} (hi : i < COMPOUND_TERM_SIZE_MAX) : ∃ c', conclusionAtom p σ i c = some c' := by
  unfold conclusionAtom
  dsimp only
  by_cases h0 : p.get i = 0
  · rw [if_pos h0]; exact ⟨_, rfl⟩
  rw [if_neg h0]
  by_cases hv : isMetaVar (p.get i) = true
  · rw [if_pos hv]
    have ok : (Term_OverrideSubterm c i (σ (p.get i).toNat)).1 = true := by
      refine (C28_override c i _).1.2 fun q hq => ?_
      have ht : t.get i ≠ 0 := by rw [hr.roots i hv]; exact hn i hv
      have hx := hr.vars i hv ht
      rw [← hx] at hq
      cases q using List.reverseRecOn with
      | nil => exact hi
      | append_singleton q b =>
        have last : ∀ (q : List Bool) (x : Term) (j : Nat) (c : Bool), Present x j (q ++ [c]) → x.get (pathPos j (q ++ [c])) ≠ 0 := by
          intro q
          induction q with
          | nil => intro x j c h; exact h.1
          | cons x q ih => intro _ j c h; exact ih _ _ c h.2
        have hne := last _ _ _ _ hq
        by_contra hlt
        apply hne
        apply (C28_extract t i).2.2
        intro hp
        exact hlt (Term.lt_of_get_ne (last _ _ _ _ hp))
    cases ho : Term_OverrideSubterm c i (σ (p.get i).toNat) with
    | mk b t' =>
      rw [ho] at ok
      cases ok
      exact ⟨_, rfl⟩
  · rw [if_neg hv]; exact ⟨_, rfl⟩

theorem conclusionLoop_complete {p t : Term} {σ : Nat → Term} (hr : ConclusionInstance p σ t)
    (hn : ∀ i, isMetaVar (p.get i) = true → (σ (p.get i).toNat).get 0 ≠ 0) :
    ∀ (k : Nat) (c : Term), k ≤ COMPOUND_TERM_SIZE_MAX → ∃ c', conclusionLoop p σ k c = some c' := by
  intro k
  induction k with
  | zero => intro c _; exact ⟨c, rfl⟩
  | succ k ih =>
    intro c hk
    obtain ⟨c1, e1⟩ := conclusionAtom_complete (c := c) hr hn (i := COMPOUND_TERM_SIZE_MAX - (k + 1)) (by omega)
    obtain ⟨c2, e2⟩ := ih c1 (by omega)
    refine ⟨c2, ?_⟩
    unfold conclusionLoop
    rw [e1]
    exact e2

/-- The conclusion is determined by the terms for the variables. -/
theorem Building.unique {p t c : Term} {σ : Nat → Term} (h : Building p σ COMPOUND_TERM_SIZE_MAX c) (hr : ConclusionInstance p σ t)
    (ht : t.Closed) (hn : ∀ i, isMetaVar (p.get i) = true → (σ (p.get i).toNat).get 0 ≠ 0) : c = t := by
  have below : ∀ i q, isMetaVar (p.get i) = true → c.get (pathPos i q) = t.get (pathPos i q) := by
    intro i q hv
    rw [h.vals i (meta_lt hv) hv (hn i hv) q, ← hr.vars i hv (by rw [hr.roots i hv]; exact hn i hv),
      C28_extract_closed t ht i (meta_lt hv) q]
  apply Term.ext_get
  intro k _
  by_cases hb : ∃ i q, isMetaVar (p.get i) = true ∧ k = pathPos i q
  · obtain ⟨i, q, hv, rfl⟩ := hb
    exact below i q hv
  · by_cases h0 : p.get k = 0
    · have hc : c.get k = 0 := by
        by_contra hx
        rcases h.nothing k hx with ⟨-, h1⟩ | ⟨i, -, q, h1⟩
        · exact h1 h0
        · exact hb ⟨i, q, h1⟩
      have hc' : t.get k = 0 := by
        by_contra hx
        rcases hr.nothing k hx with h1 | ⟨i, q, h1⟩
        · exact h1 h0
        · exact hb ⟨i, q, h1⟩
      rw [hc, hc']
    · have hv : isMetaVar (p.get k) = false := by
        by_contra hx
        exact hb ⟨k, [], by simpa using hx, rfl⟩
      rw [h.atoms k (Term.lt_of_get_ne h0) h0 hv, hr.atoms k h0 hv]

/-- The variables of a conclusion are variables of the premises. -/
def boundB (r : Rule) : Bool :=
  (atomList r.conclusion).all fun a => !metaB a || (atomList r.premise1).any (Nat.beq a) ||
    match r.premise2 with
    | some p => (atomList p).any (Nat.beq a)
    | none => false

set_option maxRecDepth 100000 in
theorem rules_bound : nalRules.all boundB = true := by decide +kernel

theorem mem_atomList {p : Term} {a : Atom} (h : (atomList p).any (Nat.beq a.toNat) = true) : ∃ j, p.get j = a := by
  rw [List.any_eq_true] at h
  obtain ⟨x, hx, e⟩ := h
  obtain ⟨j, hj⟩ := List.mem_iff_getElem?.1 hx
  refine ⟨j, BitVec.eq_of_toNat_eq ?_⟩
  rw [← atomList_get, hj]
  exact (Nat.eq_of_beq_eq_true e).symm

theorem rule_bound {r : Rule} (h : r ∈ nalRules) {i : Nat} (hv : isMetaVar (r.conclusion.get i) = true) :
    ∃ j, r.premise1.get j = r.conclusion.get i ∨ ∃ p, r.premise2 = some p ∧ p.get j = r.conclusion.get i := by
  have := List.all_eq_true.1 rules_bound r h
  unfold boundB at this
  rw [List.all_eq_true] at this
  have hg := atomList_get r.conclusion i
  have hm : (r.conclusion.get i).toNat ∈ atomList r.conclusion := by
    rw [List.mem_iff_getElem?]
    refine ⟨i, ?_⟩
    cases hx : (atomList r.conclusion)[i]? with
    | none =>
      rw [hx] at hg
      exact absurd (BitVec.eq_of_toNat_eq (Eq.symm hg) : r.conclusion.get i = 0) (isMetaVar_ne hv)
    | some x => rw [hx] at hg; rw [← hg]; rfl
  have := this _ hm
  rw [← isMetaVar_eq, hv, Bool.not_true, Bool.false_or, Bool.or_eq_true] at this
  rcases this with h1 | h1
  · obtain ⟨j, hj⟩ := mem_atomList h1
    exact ⟨j, .inl hj⟩
  · cases h2 : r.premise2 with
    | none => rw [h2] at h1; cases h1
    | some p =>
      rw [h2] at h1
      obtain ⟨j, hj⟩ := mem_atomList h1
      exact ⟨j, .inr ⟨p, rfl, hj⟩⟩

theorem ruleConclusion_complete {r : Rule} (hr : r ∈ nalRules) {t1 t2 c : Term} {τ : Nat → Term}
    (h1 : PremiseInstance n r.premise1 τ t1) (f1 : t1.FillsPattern r.premise1)
    (h2 : ∀ p, r.premise2 = some p → PremiseInstance n p τ t2 ∧ t2.FillsPattern p)
    (hc : ConclusionInstance r.conclusion τ c) (hcl : c.Closed) :
    ruleConclusion n r t1 t2 r.premise2.isSome = some c := by
  have h0 : ∀ a : Nat, ((fun _ => Term.zero : Nat → Term) a).get 0 ≠ 0 → ((fun _ => Term.zero : Nat → Term) a).Closed :=
    fun a h => absurd (Term.get_zero 0) h
  -- the last step
  have fin : ∀ σ : Nat → Term, (∀ a, (σ a).get 0 ≠ 0 → σ a = τ a) → (∀ a, (σ a).get 0 ≠ 0 → (σ a).Closed) →
      (∀ i, isMetaVar (r.conclusion.get i) = true → (σ (r.conclusion.get i).toNat).get 0 ≠ 0) →
      buildConclusion r.conclusion σ = some c := by
    intro σ hs hcs hn
    have hc' : ConclusionInstance r.conclusion σ c := by
      refine ⟨⟨hc.atoms, fun i hv hx => ?_⟩, fun i hv => ?_, hc.nothing⟩
      · rw [hs _ (hn i hv)]; exact hc.vars i hv hx
      · rw [hs _ (hn i hv)]; exact hc.roots i hv
    obtain ⟨c', e⟩ := conclusionLoop_complete hc' hn COMPOUND_TERM_SIZE_MAX Term.zero (Nat.le_refl _)
    have hb := buildConclusion_building (rule_flat hr) hcs e
    rw [← hb.unique hc' hcl hn]
    exact e
  obtain ⟨σ1, e1, a1, -, f⟩ := matchLoop_complete h1 f1 COMPOUND_TERM_SIZE_MAX (σ := fun _ => Term.zero) (Nat.le_refl _)
    (fun a h => absurd (Term.get_zero 0) h) fun i hi _ => absurd hi (by omega)
  have c1 := (matchPremise_matching (p := r.premise1) e1).closed h0
  unfold ruleConclusion
  cases h3 : r.premise2 with
  | none =>
    simp only [Option.isSome_none, Bool.false_eq_true, if_false]
    unfold matchPremise
    rw [e1]
    refine fin σ1 a1 c1 fun i hv => ?_
    obtain ⟨j, hj | ⟨p, hp, -⟩⟩ := rule_bound hr hv
    · rw [← hj] at hv ⊢; exact f j hv
    · rw [h3] at hp; cases hp
  | some p2 =>
    obtain ⟨g2, f2⟩ := h2 p2 h3
    obtain ⟨σ2, e2, a2, k2, f'⟩ := matchLoop_complete g2 f2 COMPOUND_TERM_SIZE_MAX (σ := σ1) (Nat.le_refl _) a1
      fun i hi _ => absurd hi (by omega)
    have c2 := (matchPremise_matching (p := p2) e2).closed c1
    simp only [Option.isSome_some, Bool.not_true, Bool.false_eq_true, if_false]
    unfold matchPremise
    rw [e1]
    dsimp only
    rw [e2]
    refine fin σ2 a2 c2 fun i hv => ?_
    obtain ⟨j, hj | ⟨p, hp, hj⟩⟩ := rule_bound hr hv
    · rw [← hj] at hv ⊢
      have := f j hv
      rw [k2 _ this]
      exact this
    · rw [h3] at hp
      cases hp
      rw [← hj] at hv ⊢
      exact f' j hv

end
end ONA
