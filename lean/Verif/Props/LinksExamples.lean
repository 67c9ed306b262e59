import Verif.Props.Links
import Verif.Proofs.Demo
/-
Examples for C40 and C70, evaluated by the kernel with exact arithmetic: the case with room, and the failure in a full
memory.
-/
namespace ONA
namespace Demo
attribute [local instance] exactArith
set_option maxRecDepth 100000

/-- A memory for two concepts. -/
def two : Sizes := ⟨⟨2, 4, 4, 2⟩, 100⟩

theorem two_ok : two.Ok := by refine ⟨?_, ?_, ?_, ?_, ?_⟩ <;> decide

/-- Adds the term of the concept in cell 2 as belief. -/
theorem link_check : check sizes fuel [.text "<a ==> b>."] (fun n s =>
    Narsese_copulaEquals n ((s.termOf 2).get 0) IMPLICATION && !Narsese_copulaEquals n ((s.termOf 2).get 0) TEMPORAL_IMPLICATION &&
    decide (s.live = [1, 2, 0]) && decide (s.capacity = 6) &&
    decide ((s.concept_storage 0).implication_links.entries.map (·.term) = [s.termOf 2]) &&
    decide ((s.concept_storage 2).belief.type = .belief) &&
    match NAR_AddInput n fuel (s.termOf 2) .belief ⟨1, 9/10⟩ true 0 s with
    | .ok (_, s') => decide (s'.live.length < s'.capacity)
    | .error _ => false) = true := by decide +kernel

/-- The cases of **C40** and **C70** happen: a state with a link and a belief in which another link can be added. -/
theorem C40_example : ∃ n s t ev s', Reachable sizes n s ∧ s.HasRoom ∧ n.Knows t ∧ IsImplication n t ∧ ¬ Foreign n t ∧
    (∃ c ∈ s.live, ∃ link ∈ (s.concept_storage c).implication_links.entries, link.term = t) ∧
    (∃ c ∈ s.live, (s.concept_storage c).belief.type ≠ .deleted) ∧
    NAR_AddInput n fuel t .belief ⟨1, 9/10⟩ true 0 s = .ok (ev, s') ∧ s'.HasRoom := by
  obtain ⟨n, s, -, hr, h⟩ := of_check link_check
  cases hx : NAR_AddInput n fuel (s.termOf 2) .belief ⟨1, 9/10⟩ true 0 s with
  | error _ => rw [hx] at h; simp at h
  | ok r =>
    rw [hx] at h
    simp only [Bool.and_eq_true, decide_eq_true_eq, Bool.not_eq_true'] at h
    obtain ⟨⟨⟨⟨⟨⟨h1, h2⟩, h3⟩, h4⟩, h5⟩, h6⟩, h7⟩ := h
    refine ⟨n, s, s.termOf 2, r.1, r.2, hr, ?_, ((hr.good sizes_ok).1.concepts 2).term, .inr h1, ?_, ?_, ?_, hx, h7⟩
    · unfold Sys.HasRoom; rw [h3, h4]; decide
    · intro hf; rw [hf.1] at h2; cases h2
    · refine ⟨0, by rw [h3]; decide, ?_⟩
      have : s.termOf 2 ∈ (s.concept_storage 0).implication_links.entries.map (·.term) := by rw [h5]; exact List.mem_singleton_self _
      obtain ⟨x, hx1, hx2⟩ := List.mem_map.1 this
      exact ⟨x, hx1, hx2⟩
    · exact ⟨2, by rw [h3]; decide, by rw [h6]; decide⟩

/-- With two cells the link is stored at `a`. -/
theorem link_home_check : check two fuel [.text "<a ==> b>.", .text "<a ==> b>. :|:"] (fun n s =>
    decide (s.live = [1, 0]) && decide ((s.concept_storage 0).implication_links.entries.map (·.term) = [s.termOf 1]) &&
    decide (Term_ExtractSubterm (s.termOf 1) 1 = s.termOf 0) && decide (Term_ExtractSubterm (s.termOf 1) 2 ≠ s.termOf 0) &&
    Narsese_copulaEquals n ((s.termOf 1).get 0) IMPLICATION) = true := by decide +kernel

/-- **C40 fails in a full memory.** There is a history after which a link is at the concept of its precondition, which is not
its consequence: the target concept was evicted for the source concept, and its cell reused. -/
theorem C40_full : ∃ n s c link, Reachable two n s ∧ c ∈ s.live ∧ link ∈ (s.concept_storage c).implication_links.entries ∧
    Term_ExtractSubterm link.term 1 = s.termOf c ∧ Term_ExtractSubterm link.term 2 ≠ s.termOf c := by
  obtain ⟨n, s, -, hr, h⟩ := of_check link_home_check
  simp only [Bool.and_eq_true, decide_eq_true_eq] at h
  obtain ⟨⟨⟨⟨h1, h2⟩, h3⟩, h4⟩, -⟩ := h
  have : s.termOf 1 ∈ (s.concept_storage 0).implication_links.entries.map (·.term) := by rw [h2]; exact List.mem_singleton_self _
  obtain ⟨x, hx1, hx2⟩ := List.mem_map.1 this
  exact ⟨n, s, 0, x, hr, by rw [h1]; decide, hx1, by rw [hx2]; exact h3, by rw [hx2]; exact h4⟩

/-- With two cells the belief moves to a concept without term. -/
theorem belief_home_check : check two fuel [.text "<a ==> b>.", .text "<a ==> b>."] (fun _ s =>
    decide (s.live = [1, 0]) && decide ((s.concept_storage 1).belief.type = .belief) &&
    decide (s.termOf 1 = Term.zero) && decide ((s.concept_storage 1).belief.term ≠ Term.zero)) = true := by decide +kernel

/-- **C70 fails in a full memory.** There is a history after which a concept has the empty term, and a belief which is not
about it: the concept of the revised belief was evicted while its conclusions were added. -/
theorem C70_full : ∃ n s c, Reachable two n s ∧ c ∈ s.live ∧ (s.concept_storage c).belief.type ≠ .deleted ∧
    s.termOf c = Term.zero ∧ (s.concept_storage c).belief.term ≠ s.termOf c := by
  obtain ⟨n, s, -, hr, h⟩ := of_check belief_home_check
  simp only [Bool.and_eq_true, decide_eq_true_eq] at h
  obtain ⟨⟨⟨h1, h2⟩, h3⟩, h4⟩ := h
  exact ⟨n, s, 1, hr, by rw [h1]; decide, by rw [h2]; decide, h3, by rw [h3]; exact h4⟩

end Demo
end ONA
