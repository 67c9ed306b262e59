import Verif.Model.OccurrenceTimeIndex
/-
C14. The specification is the list of all concepts ever added, newest first.
-/
namespace ONA
namespace OccurrenceTimeIndex
variable {C : Type}

/-- The index after adding the concepts of a history (newest first). -/
def afterAdds : List C → OccurrenceTimeIndex C
  | [] => zero
  | c :: h => add c (afterAdds h)

/-- Shape of a reachable index: `n` additions happened. -/
theorem afterAdds_spec (h : List C) :
    (afterAdds h).itemsAmount = min h.length OCCURRENCE_TIME_INDEX_SIZE ∧
    (afterAdds h).currentIndex = h.length % OCCURRENCE_TIME_INDEX_SIZE ∧
    (∀ i, i < OCCURRENCE_TIME_INDEX_SIZE → ∀ k, k < OCCURRENCE_TIME_INDEX_SIZE →
      (i + k + 1) % OCCURRENCE_TIME_INDEX_SIZE = h.length % OCCURRENCE_TIME_INDEX_SIZE →
      (afterAdds h).array i = h[k]?) := by
  induction h with
  | nil => simp [afterAdds, zero, OCCURRENCE_TIME_INDEX_SIZE]
  | cons c h ih =>
    obtain ⟨h1, h2, h3⟩ := ih
    unfold OCCURRENCE_TIME_INDEX_SIZE at *
    refine ⟨?_, ?_, ?_⟩
    · simp only [afterAdds, add, h1, List.length_cons, OCCURRENCE_TIME_INDEX_SIZE]; omega
    · simp only [afterAdds, add, h2, List.length_cons, OCCURRENCE_TIME_INDEX_SIZE]; omega
    · intro i hi k hk he
      simp only [afterAdds, add, List.length_cons] at *
      rw [upd_apply, h2]
      by_cases hc : i = h.length % 512
      · rw [if_pos hc]
        have : k = 0 := by omega
        subst this; rfl
      · rw [if_neg hc]
        cases k with
        | zero => omega
        | succ k =>
          rw [h3 i hi k (by omega) (by omega)]
          simp

/-- **C14.** After any number of additions (history `h`, newest first, any number of wrap-arounds) the `k`-th
newest element is the concept added `k` additions ago; positions not yet filled give NULL; an index with at least
one element rejects `k` outside the capacity with an assertion. -/
theorem C14_kth_newest (h : List C) (k : Int) :
    (∀ n : Nat, k = n → n < OCCURRENCE_TIME_INDEX_SIZE → (afterAdds h).getKthNewestElement k = .ok h[n]?) ∧
    (h ≠ [] → (k < 0 ∨ OCCURRENCE_TIME_INDEX_SIZE ≤ k) →
      (afterAdds h).getKthNewestElement k = .error (.assertFail "OccurrenceTimeIndex shift out of bounds!")) ∧
    (afterAdds h).itemsAmount = min h.length OCCURRENCE_TIME_INDEX_SIZE := by
  obtain ⟨h1, h2, h3⟩ := afterAdds_spec h
  refine ⟨?_, ?_, h1⟩
  · intro n hk hn
    subst hk
    unfold getKthNewestElement
    by_cases he : h = []
    · subst he; simp [afterAdds, zero]
    · have hpos : 0 < h.length := List.length_pos_iff.2 he
      rw [if_neg (by rw [h1]; unfold OCCURRENCE_TIME_INDEX_SIZE; omega)]
      unfold OCCURRENCE_TIME_INDEX_SIZE at *
      have hc : (decide ((0 : Int) ≤ (n : Int)) && decide ((n : Int) < ((512 : Nat) : Int))) = true := by
        simp only [Bool.and_eq_true, decide_eq_true_eq]; omega
      have key : ∃ i : Nat, (afterAdds h).index n = .ok i ∧ i < 512 ∧ (i + n + 1) % 512 = h.length % 512 := by
        unfold index OCCURRENCE_TIME_INDEX_SIZE
        rw [cassert_true hc, h2]
        simp only [R.ok_bind]
        by_cases hneg : ((h.length % 512 : Nat) : Int) - 1 - n < 0
        · rw [if_pos hneg, if_neg (by omega)]
          exact ⟨_, rfl, by omega, by omega⟩
        · rw [if_neg hneg, if_neg hneg]
          exact ⟨_, rfl, by omega, by omega⟩
      obtain ⟨i, e, hi, hm⟩ := key
      rw [e]
      simp only [R.ok_bind]
      rw [h3 i hi n hn hm]
  · intro hne hk
    have hpos : 0 < h.length := List.length_pos_iff.2 hne
    unfold getKthNewestElement
    rw [if_neg (by rw [h1]; unfold OCCURRENCE_TIME_INDEX_SIZE; omega)]
    unfold index cassert
    rw [if_neg]
    · rfl
    · simp only [Bool.and_eq_true, decide_eq_true_eq]; omega

/-- A wrapped index: after 513 additions position 511 holds the second concept ever added. -/
example : (afterAdds ((List.range 513).reverse)).getKthNewestElement 511 = .ok (some 1) := by
  have := (C14_kth_newest ((List.range 513).reverse) 511).1 511 rfl (by decide)
  rw [this]; decide +kernel

example : (afterAdds [7, 8]).getKthNewestElement 2 = (.ok none : R (Option Nat)) := by decide +kernel

end OccurrenceTimeIndex
end ONA
