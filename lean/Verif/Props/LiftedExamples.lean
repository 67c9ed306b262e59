import Verif.Props.Lifted
import Verif.Props.LinksExamples
/-
Examples for the theorems of `Lifted`, evaluated by the kernel with exact arithmetic.
-/
namespace ONA
namespace Demo
attribute [local instance] exactArith
set_option maxRecDepth 100000

theorem full_check : check two fuel [.text "a. :|:", .text "b. :|:"] (fun _ s =>
    decide (s.live.length = 2) && s.live.all fun c => decide (s.termOf c ≠ Term.zero)) = true := by decide +kernel

/-- The hypotheses of `C38_reachable` hold of a state. -/
theorem C38_reachable_example : ∃ n s, Reachable two n s ∧ s.live.length = two.memory.concepts ∧
    ∃ t, ∀ c ∈ s.live, s.termOf c ≠ t := by
  obtain ⟨n, s, -, hr, h⟩ := of_check full_check
  simp only [Bool.and_eq_true, decide_eq_true_eq, List.all_eq_true] at h
  exact ⟨n, s, hr, h.1, Term.zero, h.2⟩


end Demo
end ONA
