import Verif.Props.Subgoals
import Verif.Proofs.Demo
/-
Example for C75, evaluated by the kernel.
-/
namespace ONA
namespace Demo
attribute [local instance] exactArith
set_option maxRecDepth 100000

/-- The goal to achieve the term of the concept in cell 0. -/
def wish (s : Sys) : Event := (Event_InputEvent s.event (s.termOf 0) .goal ⟨1, 9/10⟩ 0 s.currentTime).1

theorem subgoal_check : check sizes fuel [.text "<a ==> b>."] (fun n s =>
    match Memory_AddInputEvent n (wish s) s.currentTime s with
    | .ok (_, s1) => decide ((s1.cycling_goal_events 1).contents.map (fun x => (s1.cycling_goal_event_storage 1 x.address).term) = [s.termOf 0]) &&
      match processGoalLayer n 100 (fun _ => pure ()) s.currentTime 1 s1 with
      | .ok (_, s2) => decide ((s2.cycling_goal_events 1).contents.map (·.address) = []) &&
        decide ((s2.cycling_goal_events 2).contents.map (fun x => (s2.cycling_goal_event_storage 2 x.address).term) =
          [Term_ExtractSubterm (s.termOf 2) 1]) && decide (Term_ExtractSubterm (s.termOf 2) 2 = s.termOf 0) &&
        decide (Term_ExtractSubterm (s.termOf 2) 1 ≠ s.termOf 0)
      | .error _ => false
    | .error _ => false) = true := by decide +kernel

/-- The case of **C75** happens: from the goal `b` the goal `a` is derived by the link `<a ==> b>`. -/
theorem C75_example : ∃ n s0 s s' link, Reachable sizes n s0 ∧ Good n s ∧
    (s.cycling_goal_events 1).contents.map (fun x => (s.cycling_goal_event_storage 1 x.address).term) = [Term_ExtractSubterm link 2] ∧
    processGoalLayer n 100 (fun _ => pure ()) s0.currentTime 1 s = .ok ((), s') ∧
    (s'.cycling_goal_events 1).contents = [] ∧
    (s'.cycling_goal_events 2).contents.map (fun x => (s'.cycling_goal_event_storage 2 x.address).term) = [Term_ExtractSubterm link 1] := by
  obtain ⟨n, s, -, hr, h⟩ := of_check subgoal_check
  cases e1 : Memory_AddInputEvent n (wish s) s.currentTime s with
  | error _ => rw [e1] at h; cases h
  | ok r1 =>
    obtain ⟨_, s1⟩ := r1
    rw [e1] at h
    dsimp only at h
    cases e2 : processGoalLayer n 100 (fun _ => pure ()) s.currentTime 1 s1 with
    | error _ => rw [e2] at h; simp at h
    | ok r2 =>
      obtain ⟨_, s2⟩ := r2
      rw [e2] at h
      simp only [Bool.and_eq_true, decide_eq_true_eq] at h
      obtain ⟨h1, ⟨⟨h2, h3⟩, h4⟩, -⟩ := h
      have hg := (hr.good sizes_ok).1
      have he : (wish s).Good n := inputEvent_good hg (hg.concepts 0).term .goal
        ⟨rfl, rfl, by norm_num, by norm_num, by norm_num, by norm_num⟩ 0 s.currentTime
      have hg1 : Good n s1 := (Closed.addEvent' (good_closed n) he s.currentTime (le_refl 1) true false 0 s () s1 hg e1).1
      exact ⟨n, s, s1, s2, s.termOf 2, hr, hg1, by rw [h1, h4], e2, List.map_eq_nil_iff.1 h2, h3⟩

end Demo
end ONA
