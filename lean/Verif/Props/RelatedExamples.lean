import Verif.Props.Sequences
import Verif.Proofs.Demo
/-
Examples for C76, evaluated by the kernel.
-/
namespace ONA
namespace Demo
attribute [local instance] exactArith
set_option maxRecDepth 100000

/-- The goal to achieve the term of the concept in cell `c`. -/
def wishFor (s : Sys) (c : Nat) : Event := (Event_InputEvent s.event (s.termOf c) .goal ⟨1, 9/10⟩ 0 s.currentTime).1

/-- The event that the term of the concept in cell `c` holds. -/
def newsOf (s : Sys) (c : Nat) : Event := (Event_InputEvent s.event (s.termOf c) .belief ⟨1, 9/10⟩ 0 s.currentTime).1

theorem component_check : check sizes fuel [.text "<b ==> (a &/ c)>.", .text "a. :|:"] (fun n s =>
    Narsese_copulaEquals n ((s.termOf 0).get 0) SEQUENCE && decide (Term_ExtractSubterm (s.termOf 0) 1 = s.termOf 3) &&
    match Cycle_GoalSequenceDecomposition n 100 (wishFor s 0) 1 1 s with
    | .ok (_, s1) => decide ((s1.cycling_goal_events 2).contents.map (fun x => (s1.cycling_goal_event_storage 2 x.address).term) =
        [Term_ExtractSubterm (s.termOf 0) 2])
    | .error _ => false) = true := by decide +kernel

/-- The case of **C76** (sequences) happens: `a` has happened, so the goal `(a &/ c)` makes `c` a goal. -/
theorem C76_sequence_example : ∃ n s b s', Reachable sizes n s ∧ Good n s ∧ n.Is ((s.termOf 0).get 0) SEQUENCE ∧
    Term_ExtractSubterm (s.termOf 0) 1 = s.termOf 3 ∧ Cycle_GoalSequenceDecomposition n 100 (wishFor s 0) 1 1 s = .ok (b, s') ∧
    (s'.cycling_goal_events 2).contents.map (fun x => (s'.cycling_goal_event_storage 2 x.address).term) =
        [Term_ExtractSubterm (s.termOf 0) 2] := by
  obtain ⟨n, s, -, hr, h⟩ := of_check component_check
  cases e1 : Cycle_GoalSequenceDecomposition n 100 (wishFor s 0) 1 1 s with
  | error _ => rw [e1] at h; simp at h
  | ok r1 =>
    obtain ⟨b, s1⟩ := r1
    rw [e1] at h
    simp only [Bool.and_eq_true, decide_eq_true_eq] at h
    exact ⟨n, s, b, s1, hr, (hr.good sizes_ok).1, is_iff.1 h.1.1, h.1.2, e1, h.2⟩

theorem noticed_check : check sizes fuel [.text "<b ==> (a &/ c)>.", .text "a. :|:"] (fun n s =>
    !Variable_hasVariable n (newsOf s 3).term true true true && decide ((newsOf s 3).type = .belief) &&
    decide (s.live = [3, 2, 0, 1]) && decide ((s.termOf 0).get 1 = (s.termOf 3).get 0) &&
    match Cycle_ProcessSensorimotorEvent n 100 (newsOf s 3) s.currentTime s with
    | .ok (_, s1) => decide ((s.concept_storage 3).belief_spike.occurrenceTime < s.currentTime) &&
      decide ((s1.concept_storage 3).belief_spike.occurrenceTime = s.currentTime) &&
      decide ((s1.concept_storage 3).processID = s1.conceptProcessID) &&
      decide ((s1.concept_storage 0).processID = s1.conceptProcessID) &&
      decide ((s1.concept_storage 1).processID ≠ s1.conceptProcessID) &&
      decide ((s1.concept_storage 0).lastSelectionTime = (s.concept_storage 0).lastSelectionTime)
    | .error _ => false) = true := by decide +kernel

/-- The case of **C76** (noticed) happens: the event `a` is noticed by its concept; the concept `(a &/ c)` is visited, too, but
does not match; the concept `b` is not visited. -/
theorem C76_noticed_example : ∃ n s d s', Reachable sizes n s ∧ Good n s ∧ n.Knows (newsOf s 3).term ∧ (newsOf s 3).type = .belief ∧
    Variable_hasVariable n (newsOf s 3).term true true true = false ∧ s.live = [3, 2, 0, 1] ∧
    Cycle_ProcessSensorimotorEvent n 100 (newsOf s 3) s.currentTime s = .ok (d, s') ∧
    (s.concept_storage 3).belief_spike.occurrenceTime < s.currentTime ∧
    (s'.concept_storage 3).belief_spike.occurrenceTime = s.currentTime ∧
    (s'.concept_storage 0).processID = s'.conceptProcessID ∧
    (s'.concept_storage 1).processID ≠ s'.conceptProcessID ∧
    (s'.concept_storage 0).lastSelectionTime = (s.concept_storage 0).lastSelectionTime := by
  obtain ⟨n, s, -, hr, h⟩ := of_check noticed_check
  cases e1 : Cycle_ProcessSensorimotorEvent n 100 (newsOf s 3) s.currentTime s with
  | error _ => rw [e1] at h; simp at h
  | ok r1 =>
    obtain ⟨b, s1⟩ := r1
    rw [e1] at h
    simp only [Bool.and_eq_true, decide_eq_true_eq, Bool.not_eq_true'] at h
    obtain ⟨⟨⟨⟨h1, h2⟩, h3⟩, -⟩, ⟨⟨⟨⟨h4, h5⟩, -⟩, h6⟩, h7⟩, h8⟩ := h
    have hg := (hr.good sizes_ok).1
    exact ⟨n, s, b, s1, hr, hg, (hg.concepts 3).term, h2, h1, h3, e1, h4, h5, h6, h7, h8⟩

theorem adopted_check : check sizes fuel [.text "<b ==> (a &/ c)>.", .text "a. :|:"] (fun n s =>
    !Variable_hasVariable n (wishFor s 3).term true true true && decide ((wishFor s 3).type = .goal) &&
    match Cycle_ProcessSensorimotorEvent n 100 (wishFor s 3) s.currentTime s with
    | .ok (_, s1) => decide ((s.concept_storage 3).goal_spike.type = .deleted) &&
      decide ((s1.concept_storage 3).goal_spike.type = .goal) &&
      decide ((s1.concept_storage 3).goal_spike.occurrenceTime = s.currentTime) &&
      decide ((s1.concept_storage 0).processID = s1.conceptProcessID) &&
      decide ((s1.concept_storage 0).goal_spike.type = .deleted)
    | .error _ => false) = true := by decide +kernel

/-- The case of **C76** (adopted) happens: the goal `a` is taken over by its concept; the concept `(a &/ c)` is visited, too, but
does not match. -/
theorem C76_adopted_example : ∃ n s d s', Reachable sizes n s ∧ Good n s ∧ n.Knows (wishFor s 3).term ∧ (wishFor s 3).type = .goal ∧
    Variable_hasVariable n (wishFor s 3).term true true true = false ∧
    Cycle_ProcessSensorimotorEvent n 100 (wishFor s 3) s.currentTime s = .ok (d, s') ∧
    (s.concept_storage 3).goal_spike.type = .deleted ∧ (s'.concept_storage 3).goal_spike.type = .goal ∧
    (s'.concept_storage 3).goal_spike.occurrenceTime = s.currentTime ∧
    (s'.concept_storage 0).processID = s'.conceptProcessID ∧ (s'.concept_storage 0).goal_spike.type = .deleted := by
  obtain ⟨n, s, -, hr, h⟩ := of_check adopted_check
  cases e1 : Cycle_ProcessSensorimotorEvent n 100 (wishFor s 3) s.currentTime s with
  | error _ => rw [e1] at h; simp at h
  | ok r1 =>
    obtain ⟨b, s1⟩ := r1
    rw [e1] at h
    simp only [Bool.and_eq_true, decide_eq_true_eq, Bool.not_eq_true'] at h
    obtain ⟨⟨h1, h2⟩, ⟨⟨⟨h4, h5⟩, h6⟩, h7⟩, h8⟩ := h
    have hg := (hr.good sizes_ok).1
    exact ⟨n, s, b, s1, hr, hg, (hg.concepts 3).term, h2, h1, e1, h4, h5, h6, h7, h8⟩

end Demo
end ONA
