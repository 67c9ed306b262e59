import Verif.Props.Equivalence
import Verif.Proofs.Demo
/-
Example for C82, evaluated by the kernel.
-/
namespace ONA
namespace Demo
attribute [local instance] exactArith
set_option maxRecDepth 100000

/-- The decision for the first operation because of the first link at the concept in cell 0. -/
def firstLink (s : Sys) : Decision :=
  { Decision.zero with specific_implication := ((s.concept_storage 0).precondition_beliefs 1).array 0, tableIndex := 1 }

/-- The atoms of the waiting beliefs, with their confidence. -/
def waiting (n : Narsese) (s : Sys) : List (List CStr × ℚ) :=
  s.cycling_belief_events.contents.map fun x =>
    let e := s.cycling_belief_event_storage x.address
    ((List.range 3).map (fun i => n.nameOf (e.term.get i)), e.truth.confidence)

theorem equivalence_check : check sizes fuel [.op "^x", .motorbabbling 0, .text "<(a &/ ^x) =/> g>.", .text "<(b &/ ^x) =/> g>."]
    (fun n s => decide (((s.concept_storage 0).precondition_beliefs 1).itemsAmount = 2) && decide (waiting n s = []) &&
      match functionalEquivalence n s.currentTime (firstLink s) s with
      | .ok (_, s') => decide (waiting n s' = [([[IMPLICATION], ['b'], ['a']], 81 / 181), ([[IMPLICATION], ['a'], ['b']], 81 / 181)])
      | .error _ => false) = true := by decide +kernel

/-- The case of **C82** happens: told that `^x` leads to `g` after `a`, and after `b`, the system concludes `<a ==> b>` and
`<b ==> a>` when `^x` is chosen for `g`. -/
theorem C82_example : ∃ n s s', Reachable sizes n s ∧ Good n s ∧ (firstLink s).specific_implication.Good n ∧
    functionalEquivalence n s.currentTime (firstLink s) s = .ok ((), s') ∧
    ComparesTable n s.currentTime (firstLink s).specific_implication 1 s s' ∧ waiting n s = [] ∧
    waiting n s' = [([[IMPLICATION], ['b'], ['a']], 81 / 181), ([[IMPLICATION], ['a'], ['b']], 81 / 181)] := by
  obtain ⟨n, s, -, hr, h⟩ := of_check equivalence_check
  simp only [Bool.and_eq_true, decide_eq_true_eq] at h
  obtain ⟨⟨h1, h2⟩, h3⟩ := h
  have hg := (hr.good sizes_ok).1
  have hd : (firstLink s).specific_implication.Good n := ((hg.concepts 0).precondition_beliefs 1).array (by omega)
  cases e1 : functionalEquivalence n s.currentTime (firstLink s) s with
  | error _ => rw [e1] at h3; cases h3
  | ok r1 =>
    obtain ⟨⟨⟩, s1⟩ := r1
    rw [e1] at h3
    exact ⟨n, s, s1, hr, hg, hd, e1, C82_compared hg hd e1, h2, of_decide_eq_true h3⟩

end Demo
end ONA
