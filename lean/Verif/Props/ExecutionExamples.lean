import Verif.Props.Execution
import Verif.Proofs.Demo
/-
A concrete case, evaluated by the kernel, which meets the hypotheses of C84.
-/
namespace ONA.Demo
section
attribute [local instance] exactArith
set_option maxRecDepth 100000

/-- The decision to execute the first operation. -/
def doFirst : Decision := { Decision.zero with execute := true, operationID := 1 }

theorem doFirst_ok {n : Narsese} : doFirst.Ok n :=
  ⟨Implication.zero_good, fun h => absurd rfl h, Narsese.knows_zero, Narsese.knows_zero, .inl rfl⟩

theorem doFirst_check : check sizes fuel [.op "^left"] (fun n s =>
    match Decision_Execute n (addInputBeliefNested n 100 4) s.currentTime doFirst s with
    | .ok (_, s') => decide (s.live = []) && (decide (s'.live.map s'.termOf = [(s.operations 0).term]) &&
        decide (s'.output.length = s.output.length + 1))
    | .error _ => false) = true := by decide +kernel

/-- An operation is executed, a line is printed, and the system remembers what it did. -/
theorem C84_example : ∃ n s s', Reachable sizes n s ∧ doFirst.Ok n ∧
    Decision_Execute n (addInputBeliefNested n 100 4) s.currentTime doFirst s = .ok ((), s') ∧ s.live = [] ∧
    s'.live.map s'.termOf = [(s.operations 0).term] ∧ s'.output.length = s.output.length + 1 := by
  obtain ⟨n, s, -, h, h1⟩ := of_check doFirst_check
  cases e : Decision_Execute n (addInputBeliefNested n 100 4) s.currentTime doFirst s with
  | error _ => rw [e] at h1; cases h1
  | ok p =>
    obtain ⟨⟨⟩, s'⟩ := p
    rw [e] at h1
    simp only [Bool.and_eq_true, decide_eq_true_eq] at h1
    exact ⟨n, s, s', h, doFirst_ok, e, h1.1, h1.2.1, h1.2.2⟩

end
end ONA.Demo
