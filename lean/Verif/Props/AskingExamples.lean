import Verif.Props.Asking
import Verif.Props.QuestionExamples
/-
Concrete histories, evaluated by the kernel, which meet the hypotheses of C83.
-/
namespace ONA.Demo
section
attribute [local instance] exactArith
set_option maxRecDepth 100000

/-- A statement which is answered, and whether a concept has been used more often by the question. -/
def primedTest (used : Bool) (n : Narsese) (s : Sys) (q : Term) (_t : Nat) (s' : Sys) : Bool :=
  !Narsese_copulaEquals n (q.get 0) IMPLICATION && (!Narsese_copulaEquals n (q.get 0) TEMPORAL_IMPLICATION &&
    (s.live.any fun c => decide ((s.concept_storage c).usage.useCount < (s'.concept_storage c).usage.useCount)) == used)

theorem primed_check : askCheck [.text "a. :|:"] "a? :|:" false (primedTest true) = true := by
  decide +kernel

theorem unprimed_check : askCheck [.text "a. :|:"] "b? :|:" false (primedTest false) = true := by
  decide +kernel

theorem of_primedTest {used : Bool} {n : Narsese} {s : Sys} {q : Term} {t : Nat} {s' : Sys} (h : primedTest used n s q t s' = true) :
    ¬ AsksImplication n q ∧ ¬ AsksTemporal n q ∧
      ((∃ c ∈ s.live, (s.concept_storage c).usage.useCount < (s'.concept_storage c).usage.useCount) ↔ used = true) := by
  unfold primedTest at h
  rw [Bool.and_eq_true, Bool.and_eq_true] at h
  obtain ⟨h1, h2, h3⟩ := h
  refine ⟨?_, ?_, ?_⟩
  · unfold AsksImplication
    simpa using h1
  · unfold AsksTemporal
    simpa using h2
  · rw [← eq_of_beq h3, List.any_eq_true]
    simp only [decide_eq_true_eq]

/-- A question which gives attention to the concept that answers it. -/
theorem C83_example : ∃ n s n' s' q tense, Reachable sizes n s ∧ ReadsQuestion n "a? :|:".toList n' q tense ∧
    NAR_AddInputNarsese2 n fuel "a? :|:".toList false 0 s = .ok (n', s') ∧ ¬ AsksImplication n' q ∧ ¬ AsksTemporal n' q ∧
    ∃ c ∈ s.live, (s.concept_storage c).usage.useCount < (s'.concept_storage c).usage.useCount := by
  obtain ⟨n, s, n', s', q, tense, h1, h2, h3, h4⟩ := of_askCheck primed_check
  obtain ⟨h5, h6, h7⟩ := of_primedTest h4
  exact ⟨n, s, n', s', q, tense, h1, h2, h3, h5, h6, h7.2 rfl⟩

/-- A question without answer. -/
theorem C83_example_unknown : ∃ n s n' s' q tense, Reachable sizes n s ∧ ReadsQuestion n "b? :|:".toList n' q tense ∧
    NAR_AddInputNarsese2 n fuel "b? :|:".toList false 0 s = .ok (n', s') ∧ ¬ AsksImplication n' q ∧ ¬ AsksTemporal n' q ∧
    ¬ ∃ c ∈ s.live, (s.concept_storage c).usage.useCount < (s'.concept_storage c).usage.useCount := by
  obtain ⟨n, s, n', s', q, tense, h1, h2, h3, h4⟩ := of_askCheck unprimed_check
  obtain ⟨h5, h6, h7⟩ := of_primedTest h4
  exact ⟨n, s, n', s', q, tense, h1, h2, h3, h5, h6, fun h => by cases h7.1 h⟩

end
end ONA.Demo
