import Verif.Props.Rules
import Verif.Proofs.Demo
/-
Example for C74, evaluated by the kernel.
-/
namespace ONA
namespace Demo
set_option maxRecDepth 100000

/-- The inheritance statement of two names. -/
def inherits (a b : Atom) : Term := ((Term.zero.put 0 (copulaAtom INHERITANCE)).put 1 a).put 2 b

theorem deduction_check : (match Narsese.initWith 100 with
    | .ok n => nalRules.any fun r => decide (ruleConclusion n r (inherits 64 65) (inherits 65 66) true = some (inherits 64 66)) &&
        decide (r.truth = .Deduction) && decide (r.switchTruthArgs = false)
    | .error _ => false) = true := by decide +kernel

/-- The case of **C74** happens: by one of the rules, deduction, `<a --> c>` follows from `<a --> b>` and `<b --> c>`. -/
theorem C74_example : ∃ n, n.Ok ∧ ∃ r ∈ nalRules, r.truth = .Deduction ∧
    ruleConclusion n r (inherits 64 65) (inherits 65 66) true = some (inherits 64 66) ∧
    r.Concludes n (inherits 64 65) (inherits 65 66) true (inherits 64 66) := by
  obtain ⟨n, e, h1, -⟩ := initWith_spec 100 (by decide)
  have h := deduction_check
  rw [e] at h
  obtain ⟨r, hr, h⟩ := List.any_eq_true.1 h
  rw [Bool.and_eq_true, Bool.and_eq_true, decide_eq_true_eq, decide_eq_true_eq] at h
  exact ⟨n, ⟨_, h1⟩, r, hr, h.1.2, h.1.1, C74_rule hr h.1.1⟩

end Demo
end ONA
