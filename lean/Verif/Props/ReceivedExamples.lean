import Verif.Props.RelatedExamples
import Verif.Props.Received
/-
An example for C76 (instances), evaluated by the kernel.
-/
namespace ONA
namespace Demo
attribute [local instance] exactArith
set_option maxRecDepth 100000

theorem instances_check : check sizes fuel [.text "<b --> p>. :|:", .text "<#1 --> p>. :|:"] (fun n s =>
    Variable_hasVariable n (newsOf s 1).term true true true && !Variable_hasVariable n (newsOf s 1).term false false true &&
    decide ((newsOf s 1).type = .belief) && decide (s.termOf 0 ≠ s.termOf 1) &&
    match Cycle_ProcessSensorimotorEvent n 100 (newsOf s 1) s.currentTime s with
    | .ok (_, s1) => decide ((s.concept_storage 0).belief_spike.occurrenceTime < s.currentTime) &&
      decide ((s1.concept_storage 0).belief_spike.occurrenceTime = s.currentTime) &&
      decide ((s1.concept_storage 0).belief_spike.term = s.termOf 0)
    | .error _ => false) = true := by decide +kernel

/-- The case of **C76** (instances) happens: the event that something is `p` is noticed by the concept that `b` is `p`, which
notices that `b` is `p`. -/
theorem C76_instances_example : ∃ n s d s', Reachable sizes n s ∧ Good n s ∧ n.Knows (newsOf s 1).term ∧ (newsOf s 1).type = .belief ∧
    Variable_hasVariable n (newsOf s 1).term true true true = true ∧ Variable_hasVariable n (newsOf s 1).term false false true = false ∧
    Cycle_ProcessSensorimotorEvent n 100 (newsOf s 1) s.currentTime s = .ok (d, s') ∧ s.termOf 0 ≠ s.termOf 1 ∧
    (s.concept_storage 0).belief_spike.occurrenceTime < s.currentTime ∧
    (s'.concept_storage 0).belief_spike.occurrenceTime = s.currentTime ∧
    (s'.concept_storage 0).belief_spike.term = s.termOf 0 := by
  obtain ⟨n, s, -, hr, h⟩ := of_check instances_check
  cases e1 : Cycle_ProcessSensorimotorEvent n 100 (newsOf s 1) s.currentTime s with
  | error _ => rw [e1] at h; simp at h
  | ok r1 =>
    obtain ⟨b, s1⟩ := r1
    rw [e1] at h
    simp only [Bool.and_eq_true, decide_eq_true_eq, Bool.not_eq_true'] at h
    obtain ⟨⟨⟨⟨h1, h2⟩, h3⟩, h4⟩, ⟨h5, h6⟩, h7⟩ := h
    have hg := (hr.good sizes_ok).1
    exact ⟨n, s, b, s1, hr, hg, (hg.concepts 1).term, h3, h1, h2, e1, h4, h5, h6, h7⟩

theorem goalInstances_check : check sizes fuel [.text "<b --> p>. :|:", .text "<#1 --> p>. :|:"] (fun n s =>
    Variable_hasVariable n (wishFor s 1).term true true true && !Variable_hasVariable n (wishFor s 1).term false false true &&
    decide ((wishFor s 1).type = .goal) &&
    match Cycle_ProcessSensorimotorEvent n 100 (wishFor s 1) s.currentTime s with
    | .ok (_, s1) => decide ((s.concept_storage 0).goal_spike.type = .deleted) &&
      decide ((s1.concept_storage 0).goal_spike.type = .goal) &&
      decide ((s1.concept_storage 0).goal_spike.term = s.termOf 0)
    | .error _ => false) = true := by decide +kernel

/-- The case of **C76** (goal instances) happens: the goal that something is `p` is taken over by the concept that `b` is `p`, as
the goal that `b` is `p`. -/
theorem C76_goal_instances_example : ∃ n s d s', Reachable sizes n s ∧ Good n s ∧ n.Knows (wishFor s 1).term ∧
    (wishFor s 1).type = .goal ∧ Variable_hasVariable n (wishFor s 1).term true true true = true ∧
    Variable_hasVariable n (wishFor s 1).term false false true = false ∧
    Cycle_ProcessSensorimotorEvent n 100 (wishFor s 1) s.currentTime s = .ok (d, s') ∧
    (s.concept_storage 0).goal_spike.type = .deleted ∧ (s'.concept_storage 0).goal_spike.type = .goal ∧
    (s'.concept_storage 0).goal_spike.term = s.termOf 0 := by
  obtain ⟨n, s, -, hr, h⟩ := of_check goalInstances_check
  cases e1 : Cycle_ProcessSensorimotorEvent n 100 (wishFor s 1) s.currentTime s with
  | error _ => rw [e1] at h; simp at h
  | ok r1 =>
    obtain ⟨b, s1⟩ := r1
    rw [e1] at h
    simp only [Bool.and_eq_true, decide_eq_true_eq, Bool.not_eq_true'] at h
    obtain ⟨⟨⟨h1, h2⟩, h3⟩, ⟨h5, h6⟩, h7⟩ := h
    have hg := (hr.good sizes_ok).1
    exact ⟨n, s, b, s1, hr, hg, (hg.concepts 1).term, h3, h1, h2, e1, h5, h6, h7⟩

end Demo
end ONA
