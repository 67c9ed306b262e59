import Verif.Spec.Table
import Verif.Proofs.Truth
import Mathlib.Tactic.Set
import Mathlib.Tactic.ByContra
import Mathlib.Data.List.Basic
import Mathlib.Data.List.TakeWhile
namespace ONA
namespace Table

theorem shiftDown_apply (a : Nat → Implication) (i : Nat) : ∀ (j m : Nat),
    shiftDown a i j m = if i < m ∧ m ≤ j then a (m - 1) else a m := by
  intro j
  induction j generalizing a with
  | zero => intro m; unfold shiftDown; rw [if_neg (by omega)]
  | succ j ih =>
    intro m
    unfold shiftDown
    by_cases h : j + 1 > i
    · rw [if_pos h, ih]
      by_cases hm : m = j + 1
      · subst hm
        rw [if_neg (by omega), if_pos (by omega)]; simp
      · by_cases h2 : i < m ∧ m ≤ j
        · rw [if_pos h2, if_pos (by omega), upd_other _ _ (by omega)]
        · rw [if_neg h2, if_neg (by omega), upd_other _ _ hm]
    · rw [if_neg h, if_neg (by omega)]

theorem removeLoop_apply (items : Nat) : ∀ (k : Nat) (a : Nat → Implication) (m : Nat), k ≤ items →
    removeLoop items a k m =
      if items - k ≤ m ∧ m < items then (if m = items - 1 then Implication.zero else a (m + 1)) else a m := by
  intro k
  induction k with
  | zero => intro a m _; unfold removeLoop; rw [if_neg (by omega)]
  | succ k ih =>
    intro a m hk
    unfold removeLoop
    simp only
    rw [ih _ _ (by omega)]
    by_cases hm : m = items - (k + 1)
    · subst hm
      rw [if_neg (show ¬ (items - k ≤ items - (k + 1) ∧ items - (k + 1) < items) by omega),
        if_pos (show items - (k + 1) ≤ items - (k + 1) ∧ items - (k + 1) < items by omega), upd_same]
    · rw [upd_other _ _ hm]
      by_cases h2 : items - k ≤ m ∧ m < items
      · rw [if_pos h2, if_pos (show items - (k + 1) ≤ m ∧ m < items by omega), upd_other _ _ (by omega)]
      · rw [if_neg h2, if_neg (show ¬ (items - (k + 1) ≤ m ∧ m < items) by omega)]

theorem entries_length (t : Table) : t.entries.length = t.itemsAmount := by simp [entries]

theorem entries_getElem (t : Table) (i : Nat) (h : i < t.entries.length) : t.entries[i] = t.array i := by
  simp [entries]

theorem remove_entries (t : Table) (i : Nat) (h : i < t.itemsAmount) :
    (Table_Remove t i).entries = t.entries.eraseIdx i := by
  apply List.ext_getElem
  · rw [List.length_eraseIdx_of_lt (by rwa [entries_length]), entries_length, entries_length]; rfl
  · intro m h1 h2
    have hm : m < t.itemsAmount - 1 := by rw [entries_length] at h1; exact h1
    rw [entries_getElem, List.getElem_eraseIdx]
    show removeLoop t.itemsAmount t.array (t.itemsAmount - i) m = _
    rw [removeLoop_apply _ _ _ _ (by omega)]
    by_cases hmi : m < i
    · rw [if_neg (by omega), dif_pos hmi, entries_getElem]
    · rw [if_pos (by omega), if_neg (by omega), dif_neg hmi, entries_getElem]

section
variable [Arith]
open TableSpec

omit [Arith] in
/-- Inserting at position `i`. -/
theorem insertAt_entries (t : Table) (x : Implication) (i : Nat) (hi : i ≤ t.itemsAmount) (hi' : i < TABLE_SIZE)
    (hn : t.itemsAmount ≤ TABLE_SIZE) :
    (⟨upd (shiftDown t.array i (min t.itemsAmount (TABLE_SIZE - 1))) i x, min (t.itemsAmount + 1) TABLE_SIZE⟩ : Table).entries =
      (t.entries.take i ++ x :: t.entries.drop i).take TABLE_SIZE := by
  apply List.ext_getElem
  · rw [entries_length, List.length_take, List.length_append, List.length_take, List.length_cons, List.length_drop, entries_length]
    simp only
    omega
  · intro m h1 h2
    rw [entries_length] at h1
    simp only at h1
    rw [entries_getElem, List.getElem_take, List.getElem_append]
    have hl : (t.entries.take i).length = i := by rw [List.length_take, entries_length]; omega
    simp only
    by_cases hmi : m < i
    · rw [upd_other _ _ (by omega), shiftDown_apply, if_neg (by omega), dif_pos (by omega), List.getElem_take, entries_getElem]
    · rw [dif_neg (by omega)]
      by_cases he : m = i
      · subst he
        simp [hl]
      · rw [upd_other _ _ he, shiftDown_apply, if_pos (by omega)]
        obtain ⟨d, rfl⟩ : ∃ d, m = i + d + 1 := ⟨m - i - 1, by omega⟩
        simp only [hl]
        have : i + d + 1 - i = d + 1 := by omega
        simp only [this, List.getElem_cons_succ, List.getElem_drop, entries_getElem]
        congr 1

theorem addLoop_spec (t : Table) (x : Implication) (hn : t.itemsAmount ≤ TABLE_SIZE) : ∀ k, k ≤ TABLE_SIZE →
    TABLE_SIZE - k ≤ t.itemsAmount →
    (∀ m, m < TABLE_SIZE - k → keeps x (t.array m) = true) →
    (t.addLoop x k).2.entries = (insert x t.entries).take TABLE_SIZE ∧
    (t.addLoop x k).1 = (if (t.entries.takeWhile (keeps x)).length < TABLE_SIZE
      then some (t.entries.takeWhile (keeps x)).length else none) := by
  intro k
  induction k with
  | zero =>
    intro _ hk hm
    have hN : t.itemsAmount = TABLE_SIZE := by omega
    have hall : ∀ e ∈ t.entries, keeps x e = true := by
      intro e he
      unfold entries at he
      obtain ⟨m, hm', rfl⟩ := List.mem_map.1 he
      exact hm m (by have := List.mem_range.1 hm'; omega)
    have htw : t.entries.takeWhile (keeps x) = t.entries := List.takeWhile_eq_self_iff.2 hall
    unfold addLoop
    refine ⟨?_, ?_⟩
    · unfold TableSpec.insert
      rw [htw, List.take_append_of_le_length (by rw [entries_length]; omega), List.take_of_length_le (by rw [entries_length]; omega)]
    · rw [htw, if_neg (by rw [entries_length]; omega)]
  | succ k ih =>
    intro hk hki hm
    unfold addLoop
    set i := TABLE_SIZE - (k + 1) with hi
    have hlen := t.entries_length
    -- the entries in front of `i` are all kept
    have hsplit : t.entries = t.entries.take i ++ t.entries.drop i := (List.take_append_drop _ _).symm
    have hpre : ∀ e ∈ t.entries.take i, keeps x e = true := by
      intro e he
      obtain ⟨m, hm1, rfl⟩ := List.getElem_of_mem he
      rw [List.getElem_take, entries_getElem]
      rw [List.length_take] at hm1
      exact hm m (by omega)
    have htake : (t.entries.take i).takeWhile (keeps x) = t.entries.take i := List.takeWhile_eq_self_iff.2 hpre
    by_cases hc : i = t.itemsAmount ∨ keeps x (t.array i) = false
    · -- stop here
      have hcond : (decide (i = t.itemsAmount) ||
        (!decide ((t.array i).term = x.term) && decide (Truth_Expectation x.truth > Truth_Expectation (t.array i).truth)) ||
        (decide ((t.array i).term = x.term) && decide (x.truth.confidence > (t.array i).truth.confidence))) = true := by
        rcases hc with h | h
        · simp [h]
        · unfold keeps at h
          by_cases hs : (t.array i).term = x.term
          · rw [if_pos hs] at h; simp at h; simp [hs, h]
          · rw [if_neg hs] at h; simp at h; simp [hs, h]
      simp only
      rw [if_pos hcond]
      have hdrop : (t.entries.drop i).takeWhile (keeps x) = [] ∧ (t.entries.drop i).dropWhile (keeps x) = t.entries.drop i := by
        rcases hc with h | h
        · rw [h, ← hlen, List.drop_length]; simp
        · by_cases hlt : i < t.itemsAmount
          · rw [List.drop_eq_getElem_cons (by rw [hlen]; exact hlt), entries_getElem]
            rw [List.takeWhile_cons, List.dropWhile_cons]
            simp [h]
          · have : t.entries.drop i = [] := List.drop_eq_nil_of_le (by omega)
            rw [this]; simp
      have htw : t.entries.takeWhile (keeps x) = t.entries.take i := by
        conv_lhs => rw [hsplit]
        rw [List.takeWhile_append_of_pos hpre, hdrop.1, List.append_nil]
      have hdw : t.entries.dropWhile (keeps x) = t.entries.drop i := by
        conv_lhs => rw [hsplit]
        rw [List.dropWhile_append_of_pos hpre, hdrop.2]
      refine ⟨?_, ?_⟩
      · simp only
        rw [insertAt_entries t x i (by omega) (by omega) hn]
        unfold TableSpec.insert
        rw [htw, hdw]
      · have hl : (t.entries.takeWhile (keeps x)).length = i := by rw [htw, List.length_take, hlen]; omega
        rw [hl, if_pos (show i < TABLE_SIZE by omega)]
    · push Not at hc
      obtain ⟨hc1, hc2⟩ := hc
      have hkeep : keeps x (t.array i) = true := by simpa using hc2
      have hcond : ¬ ((decide (i = t.itemsAmount) ||
        (!decide ((t.array i).term = x.term) && decide (Truth_Expectation x.truth > Truth_Expectation (t.array i).truth)) ||
        (decide ((t.array i).term = x.term) && decide (x.truth.confidence > (t.array i).truth.confidence))) = true) := by
        unfold keeps at hkeep
        by_cases hs : (t.array i).term = x.term
        · rw [if_pos hs] at hkeep; simp at hkeep; simp [hs, hkeep, hc1]
        · rw [if_neg hs] at hkeep; simp at hkeep; simp [hs, hkeep, hc1]
      simp only
      rw [if_neg hcond]
      refine ih (by omega) (by omega) ?_
      intro m hm'
      by_cases he : m = i
      · rw [he]; exact hkeep
      · exact hm m (by omega)

theorem add_spec (t : Table) (x : Implication) (hn : t.itemsAmount ≤ TABLE_SIZE) (hx : x.sourceConcept.isSome) :
    ∃ t', Table_Add t x = .ok ((if (t.entries.takeWhile (keeps x)).length < TABLE_SIZE
      then some (t.entries.takeWhile (keeps x)).length else none), t') ∧
      t'.entries = (insert x t.entries).take TABLE_SIZE := by
  obtain ⟨h1, h2⟩ := addLoop_spec t x hn TABLE_SIZE (Nat.le_refl _) (by omega) (by intro m hm; omega)
  refine ⟨(t.addLoop x TABLE_SIZE).2, ?_, h1⟩
  unfold Table_Add
  rw [cassert_true hx, R.ok_bind, ← h2]

omit [Arith] in
theorem findTerm_spec (t : Table) (s : Term) : ∀ k, k ≤ t.itemsAmount →
    (∀ m, m < t.itemsAmount - k → (t.array m).term ≠ s) →
    match t.findTerm s k with
    | some i => i < t.itemsAmount ∧ (t.array i).term = s
    | none => ∀ m, m < t.itemsAmount → (t.array m).term ≠ s := by
  intro k
  induction k with
  | zero => intro _ h; simpa [findTerm] using h
  | succ k ih =>
    intro hk h
    unfold findTerm
    simp only
    by_cases hc : s = (t.array (t.itemsAmount - (k + 1))).term
    · rw [if_pos hc]; exact ⟨by omega, hc.symm⟩
    · rw [if_neg hc]
      refine ih (by omega) ?_
      intro m hm
      by_cases he : m = t.itemsAmount - (k + 1)
      · rw [he]; exact fun h => hc h.symm
      · exact h m (by omega)

end
end Table
end ONA
