import Verif.Props.Reports
import Verif.Proofs.Demo
/-
Concrete histories, evaluated by the kernel, for the theorems of Props/Reports.lean.
-/
namespace ONA
section
attribute [local instance] exactArith
open Demo
set_option maxRecDepth 100000

namespace Demo

def reportTest (_ : Narsese) (s : Sys) : Bool :=
  decide (s.currentTime = 3) && (decide (s.live.length = 3) && (decide (s.cycling_belief_events.contents.length = 0) &&
    decide ((s.cycling_goal_events 0).contents.length = 0)))

theorem report_check : check sizes fuel [.motorbabbling 0, .text "a. :|:", .text "b. :|:"] reportTest = true := by decide +kernel

end Demo

/-- C85_stats: after two events there are three concepts, and no event is waiting. -/
example : ∃ n s x, Reachable sizes n s ∧ s.currentTime ≠ 0 ∧ Report.stats.print n s = .ok (.stats x) ∧ x.currentTime = 3 ∧
    x.totalConcepts = 3 ∧ x.beliefEvents = 0 := by
  obtain ⟨n, s, _, h, ht⟩ := of_check report_check
  unfold reportTest at ht
  simp only [Bool.and_eq_true, decide_eq_true_eq] at ht
  obtain ⟨a, b, c, -⟩ := ht
  have h0 : s.currentTime ≠ 0 := by rw [a]; decide
  obtain ⟨x, e, hx⟩ := C85_stats sizes_ok h h0
  exact ⟨n, s, x, h, h0, e, by rw [hx.time, a], by rw [hx.concepts, b], by rw [hx.beliefs, c]⟩

/-- C85_time0: the clock can be set to 0. -/
example : ∃ n s, Reachable sizes n s ∧ s.currentTime = 0 ∧ Report.stats.print n s = .error (.ub "division by zero") := by
  obtain ⟨n, s, _, h, -⟩ := of_check report_check
  have h' : Reachable sizes n { s with currentTime := 0 } := .call fuel (.command (.currentTime 0)) h trivial rfl
  exact ⟨n, _, h', rfl, C85_time0 sizes_ok h' rfl⟩

namespace Demo

def lastLinkTest (_ : Narsese) (s : Sys) : Bool :=
  decide (0 ∈ s.live) && (decide (0 < ((s.concept_storage 0).precondition_beliefs OPERATIONS_MAX).itemsAmount) &&
    (Shell_concepts s).all fun x => x.links.all fun l =>
      decide (l.term ≠ (((s.concept_storage 0).precondition_beliefs OPERATIONS_MAX).array 0).term))

theorem lastLink_check : check sizes fuel [.op "^1", .op "^2", .op "^3", .op "^4", .op "^5", .op "^6", .op "^7", .op "^8", .op "^9",
    .op "^10", .motorbabbling 0, .text "<(a &/ ^10) =/> b>."] lastLinkTest = true := by decide +kernel

end Demo

/-- **C85 fails for the last operation.** A link stored for the tenth operation is not listed by `*concepts`. -/
theorem C85_last_operation : ∃ n s l, Reachable sizes n s ∧ Report.concepts.print n s = .ok (.concepts l) ∧
    ∃ c ∈ s.live, ∃ imp ∈ ((s.concept_storage c).precondition_beliefs OPERATIONS_MAX).entries,
      ∀ x ∈ l, ∀ listed ∈ x.links, listed.term ≠ imp.term := by
  obtain ⟨n, s, _, h, ht⟩ := of_check lastLink_check
  unfold lastLinkTest at ht
  simp only [Bool.and_eq_true, decide_eq_true_eq, List.all_eq_true] at ht
  obtain ⟨a, b, c⟩ := ht
  exact ⟨n, s, _, h, rfl, 0, a, _, mem_entries.2 ⟨0, b, rfl⟩, c⟩

end
end ONA
