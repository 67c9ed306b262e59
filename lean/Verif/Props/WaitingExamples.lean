import Verif.Props.Waiting
import Verif.Props.AdmissionExamples
/-
Examples for C89, evaluated by the kernel.
-/
namespace ONA
namespace Demo
attribute [local instance] exactArith
set_option maxRecDepth 100000

/-- Selects and checks how many go on waiting. -/
def picksB (s : Sys) : Bool :=
  match popBeliefEvents s with
  | .ok (_, s') => decide (s'.beliefsSelectedCnt = 1) && decide (s'.cycling_belief_events.itemsAmount + 1 = s.cycling_belief_events.itemsAmount)
  | .error _ => false

theorem picks_check : check wide fuel [.text "<a --> b>. :|:", .text "<b --> c>. :|:"] (fun _ s => picksB s) = true := by decide +kernel

/-- A conclusion waits for attention, and gets it. -/
example : ∃ n s s', Reachable wide n s ∧ Good n s ∧ popBeliefEvents s = .ok ((), s') ∧ s'.beliefsSelectedCnt = 1 ∧
    s'.cycling_belief_events.itemsAmount + 1 = s.cycling_belief_events.itemsAmount := by
  obtain ⟨n, s, -, hr, h⟩ := of_check picks_check
  unfold picksB at h
  cases e : popBeliefEvents s with
  | error _ => rw [e] at h; cases h
  | ok r =>
    rw [e] at h
    simp only [Bool.and_eq_true, decide_eq_true_eq] at h
    exact ⟨n, s, r.2, hr, (hr.good wide_ok).1, e, h.1, h.2⟩

/-- Checks the waiting ones before and after a call. -/
theorem moves_check : check2 single fuel [.text "<a --> b>. :|:", .text "<b --> c>. :|:"] (.cycles 1) (fun s s' =>
    decide (s.cycling_belief_events.itemsAmount = 1) && decide (s'.cycling_belief_events.itemsAmount = 0)) = true := by decide +kernel

/-- The one who waited is gone after one more cycle: it got attention. -/
example : ∃ n s, ∃ c : Call, ∃ n' s', Reachable single n s ∧ c.Legal n s ∧ c.restarts = false ∧ c.run single fuel n s = .ok (n', s') ∧
    s.waitingBeliefs.length = 1 ∧ s'.waitingBeliefs = [] := by
  obtain ⟨n, s, n', s', hr, hl, e, h⟩ := of_check2 moves_check
  simp only [Bool.and_eq_true, decide_eq_true_eq] at h
  refine ⟨n, s, _, n', s', hr, hl, rfl, e, ?_, ?_⟩
  · unfold Sys.waitingBeliefs waitingIn PriorityQueue.contents
    rw [h.1]
    rfl
  · unfold Sys.waitingBeliefs waitingIn PriorityQueue.contents
    rw [h.2]
    rfl

end Demo
end ONA
