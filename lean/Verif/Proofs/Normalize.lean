import Verif.Spec.Normalize
import Verif.Proofs.Term
import Mathlib.Data.List.Induction
import Mathlib.Data.List.Basic
import Mathlib.Tactic.Set
namespace ONA
open Classical

theorem firstOccurrences_append (l : List Atom) (a : Atom) :
    firstOccurrences (l ++ [a]) = if a ∈ firstOccurrences l then firstOccurrences l else firstOccurrences l ++ [a] := by
  unfold firstOccurrences
  rw [List.foldl_append]; rfl

theorem mem_firstOccurrences {l : List Atom} {a : Atom} : a ∈ firstOccurrences l ↔ a ∈ l := by
  induction l using List.reverseRecOn with
  | nil => rfl
  | append_singleton l b ih =>
    rw [firstOccurrences_append, List.mem_append, List.mem_singleton]
    split
    · rename_i hb
      rw [ih]
      rw [ih.symm.trans ih] at *
      constructor
      · exact Or.inl
      · rintro (h | rfl)
        · exact h
        · exact ih.1 hb
    · rw [List.mem_append, List.mem_singleton, ih]

theorem kindVars_succ (n : Narsese) (kind : Char) (t : Term) (j : Nat) :
    kindVars n kind t (j + 1) =
      if (Variable_isVariable n (t.get j) && varType n (t.get j) == kind) = true then
        if t.get j ∈ kindVars n kind t j then kindVars n kind t j else kindVars n kind t j ++ [t.get j]
      else kindVars n kind t j := by
  unfold kindVars
  rw [List.range_succ, List.map_append, List.filter_append]
  by_cases h : (Variable_isVariable n (t.get j) && varType n (t.get j) == kind) = true
  · rw [if_pos h, List.map_singleton, List.filter_cons_of_pos (by simpa using h), List.filter_nil, firstOccurrences_append]
  · rw [if_neg h, List.map_singleton, List.filter_cons_of_neg (by simpa using h), List.filter_nil, List.append_nil]

theorem mem_kindVars {n : Narsese} {kind : Char} {t : Term} {j : Nat} {a : Atom} :
    a ∈ kindVars n kind t j ↔ (∃ i, i < j ∧ t.get i = a) ∧ Variable_isVariable n a = true ∧ varType n a = kind := by
  unfold kindVars
  rw [mem_firstOccurrences, List.mem_filter, List.mem_map]
  simp [List.mem_range]

theorem kindVars_prefix (n : Narsese) (kind : Char) (t : Term) {j k : Nat} (h : j ≤ k) :
    kindVars n kind t j <+: kindVars n kind t k := by
  induction k with
  | zero => rw [show j = 0 by omega]; exact List.prefix_rfl
  | succ k ih =>
    rcases Nat.lt_or_ge k j with h1 | h1
    · rw [show j = k + 1 by omega]; exact List.prefix_rfl
    · refine (ih h1).trans ?_
      rw [kindVars_succ]
      split
      · split
        · exact List.prefix_rfl
        · exact List.prefix_append _ _
      · exact List.prefix_rfl

theorem idxOf_prefix {l m : List Atom} (h : l <+: m) {a : Atom} (ha : a ∈ l) : m.idxOf a = l.idxOf a := by
  obtain ⟨r, rfl⟩ := h
  exact List.idxOf_append_of_mem ha

theorem renameLoop_spec (atom new : Atom) : ∀ (k : Nat) (term : Term) (nz : Nat → Bool), k ≤ COMPOUND_TERM_SIZE_MAX →
    ∀ i, ((renameLoop atom new k term nz).1.get i =
        if COMPOUND_TERM_SIZE_MAX - k ≤ i ∧ i < COMPOUND_TERM_SIZE_MAX ∧ term.get i = atom then new else term.get i) ∧
      ((renameLoop atom new k term nz).2 i =
        if COMPOUND_TERM_SIZE_MAX - k ≤ i ∧ i < COMPOUND_TERM_SIZE_MAX ∧ term.get i = atom then true else nz i) := by
  intro k
  induction k with
  | zero =>
    intro term nz _ i
    rw [renameLoop]
    rw [if_neg (by omega), if_neg (by omega)]
    exact ⟨rfl, rfl⟩
  | succ k ih =>
    intro term nz hk i
    rw [renameLoop]
    set j := COMPOUND_TERM_SIZE_MAX - (k + 1) with hj
    have hjlt : j < COMPOUND_TERM_SIZE_MAX := by omega
    by_cases ha : atom = term.get j
    · rw [if_pos ha]
      obtain ⟨h1, h2⟩ := ih (term.put j new) (upd nz j true) (by omega) i
      rw [h1, h2]
      by_cases hij : i = j
      · have hn : ¬ (COMPOUND_TERM_SIZE_MAX - k ≤ i ∧ i < COMPOUND_TERM_SIZE_MAX ∧ (term.put j new).get i = atom) :=
          fun h => absurd h.1 (by omega)
        have hp : j ≤ i ∧ i < COMPOUND_TERM_SIZE_MAX ∧ term.get i = atom := ⟨by omega, by omega, by rw [hij]; exact ha.symm⟩
        rw [if_neg hn, if_neg hn, if_pos hp, if_pos hp, hij, Term.get_put_same _ _ hjlt]
        exact ⟨rfl, upd_same _ _ _⟩
      · rw [Term.get_put_ne _ _ hij, upd_other _ _ hij]
        by_cases hc : COMPOUND_TERM_SIZE_MAX - k ≤ i ∧ i < COMPOUND_TERM_SIZE_MAX ∧ term.get i = atom
        · rw [if_pos hc, if_pos hc, if_pos ⟨by omega, hc.2⟩, if_pos ⟨by omega, hc.2⟩]; exact ⟨rfl, rfl⟩
        · have : ¬ (j ≤ i ∧ i < COMPOUND_TERM_SIZE_MAX ∧ term.get i = atom) := by
            rintro ⟨a, b⟩; exact hc ⟨by omega, b⟩
          rw [if_neg hc, if_neg hc, if_neg this, if_neg this]; exact ⟨rfl, rfl⟩
    · rw [if_neg ha]
      obtain ⟨h1, h2⟩ := ih term nz (by omega) i
      rw [h1, h2]
      by_cases hc : COMPOUND_TERM_SIZE_MAX - k ≤ i ∧ i < COMPOUND_TERM_SIZE_MAX ∧ term.get i = atom
      · rw [if_pos hc, if_pos hc, if_pos ⟨by omega, hc.2⟩, if_pos ⟨by omega, hc.2⟩]; exact ⟨rfl, rfl⟩
      · have : ¬ (j ≤ i ∧ i < COMPOUND_TERM_SIZE_MAX ∧ term.get i = atom) := by
          rintro ⟨a, b⟩
          by_cases hij : i = j
          · subst hij; exact ha b.2.symm
          · exact hc ⟨by omega, b⟩
        rw [if_neg hc, if_neg hc, if_neg this, if_neg this]; exact ⟨rfl, rfl⟩

/-- The variable occurs among the first `j` atoms. -/
def Seen (n : Narsese) (t : Term) (j : Nat) (a : Atom) : Prop := Variable_isVariable n a = true ∧ ∃ i, i < j ∧ t.get i = a

theorem varType_mem (n : Narsese) (a : Atom) : varType n a ∈ varKinds := by
  unfold varType varKinds
  split
  · simp
  · split <;> simp

theorem normalizeLoop_spec {n : Narsese} {t : Term} (hn : StandardVars n) (hf : FewVars n t) (hc : NoClash n t) : ∀ (k : Nat) (s : NormState),
    k ≤ COMPOUND_TERM_SIZE_MAX →
    (∀ i, s.term.get i = if Seen n t (COMPOUND_TERM_SIZE_MAX - k) (t.get i) then normalName n t (t.get i) else t.get i) →
    (∀ i, i < COMPOUND_TERM_SIZE_MAX → (s.normalized i = true ↔ Seen n t (COMPOUND_TERM_SIZE_MAX - k) (t.get i))) →
    (∀ kind, s.index kind = (kindVars n kind t (COMPOUND_TERM_SIZE_MAX - k)).length + 1) →
    ∃ r, normalizeLoop n k s = .ok r ∧ ∀ i, r.get i = normalName n t (t.get i) := by
  intro k
  induction k with
  | zero =>
    intro s _ h1 _ _
    refine ⟨s.term, rfl, fun i => ?_⟩
    rw [h1]
    split
    · rfl
    · rename_i hns
      unfold normalName
      by_cases hv : Variable_isVariable n (t.get i) = true
      · exfalso
        apply hns
        refine ⟨hv, i, ?_, rfl⟩
        have h0 : t.get i ≠ 0 := by
          intro hz; rw [hz] at hv
          simp [Variable_isVariable, Variable_isIndependentVariable, Variable_isDependentVariable,
            Variable_isQueryVariable] at hv
        have := Term.lt_of_get_ne h0
        omega
      · rw [if_neg hv]
  | succ k ih =>
    intro s hk h1 h2 h3
    rw [normalizeLoop]
    simp only
    set j := COMPOUND_TERM_SIZE_MAX - (k + 1) with hj
    have hjlt : j < COMPOUND_TERM_SIZE_MAX := by omega
    have hnext : COMPOUND_TERM_SIZE_MAX - k = j + 1 := by omega
    rw [hnext] at ih
    by_cases hseen : Seen n t j (t.get j)
    · -- already renamed
      rw [(h2 j hjlt).2 hseen]
      simp only [Bool.not_true, Bool.false_and, Bool.false_eq_true, if_false]
      have hiff : ∀ a, Seen n t (j + 1) a ↔ Seen n t j a := by
        intro a
        constructor
        · rintro ⟨hv, i, hi, rfl⟩
          by_cases hij : i = j
          · subst hij; exact hseen
          · exact ⟨hv, i, by omega, rfl⟩
        · rintro ⟨hv, i, hi, rfl⟩; exact ⟨hv, i, by omega, rfl⟩
      apply ih s (by omega)
      · intro i; rw [h1 i]; simp only [hiff]
      · intro i hi; rw [hiff]; exact h2 i hi
      · intro kind
        rw [h3, kindVars_succ]
        split
        · rename_i hkd
          rw [if_pos]
          rw [mem_kindVars]
          simp only [Bool.and_eq_true, beq_iff_eq] at hkd
          exact ⟨hseen.2, hkd⟩
        · rfl
    · have hcur : s.term.get j = t.get j := by rw [h1 j, if_neg hseen]
      have hnz : s.normalized j = false := by
        rw [Bool.eq_false_iff]; intro h; exact hseen ((h2 j hjlt).1 h)
      rw [hcur, hnz]
      by_cases hv : Variable_isVariable n (t.get j) = true
      · rw [hv]
        simp only [Bool.not_false, Bool.true_and, if_true]
        set v := t.get j with hvdef
        -- the number of the new variable
        have hnotin : v ∉ kindVars n (varType n v) t j := by
          rw [mem_kindVars]; rintro ⟨h, -, -⟩; exact hseen ⟨hv, h⟩
        have hsucc : kindVars n (varType n v) t (j + 1) = kindVars n (varType n v) t j ++ [v] := by
          rw [kindVars_succ, if_pos (by simp [← hvdef, hv]), if_neg hnotin]
        have hrank : varRank n t v = s.index (varType n v) := by
          unfold varRank
          rw [idxOf_prefix (kindVars_prefix n (varType n v) t (show j + 1 ≤ COMPOUND_TERM_SIZE_MAX by omega))
            (by rw [hsucc]; simp), hsucc, List.idxOf_append_of_notMem hnotin, h3]
          simp
        have hle9 : s.index (varType n v) ≤ 9 := by
          rw [← hrank]
          have hin : v ∈ kindVars n (varType n v) t COMPOUND_TERM_SIZE_MAX := by
            rw [mem_kindVars]; exact ⟨⟨j, hjlt, rfl⟩, hv, rfl⟩
          have := List.idxOf_lt_length_iff.2 hin
          have := hf (varType n v)
          unfold varRank; omega
        rw [cassert_true (by simpa using hle9)]
        simp only [R.ok_bind]
        have hren := renameLoop_spec v (nameAtom (varName (varType n v) (s.index (varType n v)))) (k + 1) s.term s.normalized hk
        rw [← hj] at hren
        have hname : nameAtom (varName (varType n v) (s.index (varType n v))) = normalName n t v := by
          unfold normalName; rw [if_pos hv, hrank]
        rw [hname] at hren
        have hiff : ∀ a, Seen n t (j + 1) a ↔ Seen n t j a ∨ a = v := by
          intro a
          constructor
          · rintro ⟨hva, i, hi, rfl⟩
            by_cases hij : i = j
            · subst hij; exact Or.inr rfl
            · exact Or.inl ⟨hva, i, by omega, rfl⟩
          · rintro (⟨hva, i, hi, rfl⟩ | rfl)
            · exact ⟨hva, i, by omega, rfl⟩
            · exact ⟨hv, j, by omega, rfl⟩
        -- which positions are renamed
        have hpos : ∀ i, (j ≤ i ∧ i < COMPOUND_TERM_SIZE_MAX ∧ s.term.get i = v) ↔ t.get i = v := by
          intro i
          constructor
          · rintro ⟨_, _, he⟩
            rw [h1 i] at he
            by_cases hsi : Seen n t j (t.get i)
            · exfalso
              rw [if_pos hsi] at he
              unfold normalName at he
              rw [if_pos hsi.1] at he
              -- the old variable would have got the name of the new one
              have hrin : t.get i ∈ kindVars n (varType n (t.get i)) t j := by
                rw [mem_kindVars]; exact ⟨hsi.2, hsi.1, rfl⟩
              have hri : varRank n t (t.get i) ≤ (kindVars n (varType n (t.get i)) t j).length := by
                unfold varRank
                rw [idxOf_prefix (kindVars_prefix n _ t (show j ≤ COMPOUND_TERM_SIZE_MAX by omega)) hrin]
                exact List.idxOf_lt_length_iff.2 hrin
              have hri9 : varRank n t (t.get i) ≤ 9 := by
                have := (kindVars_prefix n (varType n (t.get i)) t (show j ≤ COMPOUND_TERM_SIZE_MAX by omega)).length_le
                have := hf (varType n (t.get i))
                omega
              have hk' := hn _ (varType_mem n (t.get i)) (varRank n t (t.get i)) (Nat.le_add_left 1 _) hri9
              rw [he] at hk'
              have hvr := hc j (varRank n t (t.get i)) hv (by rw [← hvdef, hk', he]) (Nat.le_add_left 1 _) hri9
              rw [← hvdef, hrank, h3, hk'] at hvr
              omega
            · rw [if_neg hsi] at he; exact he
          · intro he
            have hnot : ¬ Seen n t j (t.get i) := by rw [he]; exact hseen
            refine ⟨?_, ?_, ?_⟩
            · by_contra hlt
              exact hseen ⟨hv, i, by omega, he⟩
            · have h0 : t.get i ≠ 0 := by
                intro hz; rw [← he, hz] at hv
                simp [Variable_isVariable, Variable_isIndependentVariable, Variable_isDependentVariable,
                  Variable_isQueryVariable] at hv
              exact Term.lt_of_get_ne h0
            · rw [h1 i, if_neg hnot, he]
        apply ih _ (by omega)
        · intro i
          show (renameLoop _ _ _ _ _).1.get i = _
          rw [hname, (hren i).1]
          simp only [hpos, hiff]
          by_cases hiv : t.get i = v
          · rw [if_pos hiv, if_pos (Or.inr hiv), hiv]
          · rw [if_neg hiv, h1 i]
            by_cases hsi : Seen n t j (t.get i)
            · rw [if_pos hsi, if_pos (Or.inl hsi)]
            · rw [if_neg hsi, if_neg (by rintro (h | h); exacts [hsi h, hiv h])]
        · intro i hi
          show (renameLoop _ _ _ _ _).2 i = true ↔ _
          rw [hname, (hren i).2]
          simp only [hpos, hiff]
          by_cases hiv : t.get i = v
          · rw [if_pos hiv]; simp [hiv]
          · rw [if_neg hiv, h2 i hi]; simp [hiv]
        · intro kind
          rw [kindVars_succ]
          by_cases hkd : kind = varType n v
          · subst hkd
            rw [if_pos (by simp [← hvdef, hv]), if_neg (by rw [← hvdef]; exact hnotin)]
            simp [h3]
          · simp only [if_neg hkd]
            rw [if_neg (by simp [← hvdef, hv]; exact fun h => hkd h.symm), h3]
      · have hvf : Variable_isVariable n (t.get j) = false := by simpa using hv
        rw [hvf]
        simp only [Bool.and_false, Bool.false_eq_true, if_false]
        have hiff : ∀ a, Seen n t (j + 1) a ↔ Seen n t j a := by
          intro a
          constructor
          · rintro ⟨hva, i, hi, rfl⟩
            by_cases hij : i = j
            · subst hij; exact absurd hva hv
            · exact ⟨hva, i, by omega, rfl⟩
          · rintro ⟨hva, i, hi, rfl⟩; exact ⟨hva, i, by omega, rfl⟩
        apply ih s (by omega)
        · intro i; rw [h1 i]; simp only [hiff]
        · intro i hi; rw [hiff]; exact h2 i hi
        · intro kind
          rw [h3, kindVars_succ, if_neg (by simp [hvf])]

end ONA
