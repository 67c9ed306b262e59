import Verif.Props.InferenceRun
import Verif.Proofs.Demo
/-
Examples for C50 and C51, evaluated by the kernel with exact arithmetic.
-/
namespace ONA
namespace Demo
attribute [local instance] exactArith
set_option maxRecDepth 100000

/-- An event with the evidence `k`. -/
def eventWith (t : Term) (now k : Int) : Event :=
  { Event.zero with
    term := t, type := .belief, truth := ⟨1, 9/10⟩, occurrenceTime := now, stamp := ⟨fun i => if i = 0 then k else 0⟩ }

/-- Inference with the concept in cell 2 of the state reached. -/
def inferCheck (l : List Line) (k : Int) (test : Sys → Sys → Bool) : Bool :=
  check sizes fuel l fun n s =>
    match inferWith n (eventWith (Term_ExtractSubterm (s.termOf 2) 1) s.currentTime k) 1 s.currentTime 2 (s.concept_storage 2).id s with
    | .ok (_, s') => test s s'
    | .error _ => false

/-- From `<a ==> b>.` and the event `a.`, which has other evidence, `b` is derived. -/
theorem inference_check : inferCheck [.text "<a ==> b>."] 7 (fun s s' =>
    decide (s.cycling_belief_events.itemsAmount = 0) && decide (s'.cycling_belief_events.itemsAmount = 1) &&
    decide ((s'.cycling_belief_event_storage (s'.cycling_belief_events.items 0).address).stamp.ids = [7, 1]) &&
    !Stamp_checkOverlap (eventWith (Term_ExtractSubterm (s.termOf 2) 1) s.currentTime 7).stamp (s.concept_storage 2).belief.stamp)
    = true := by decide +kernel

/-- A link whose evidence contains the same id twice. -/
theorem overlap_check : check sizes fuel
    [.op "^x", .stampimport [5], .text "a. :|:", .stampimport [5], .text "^x. :|:", .text "b. :|:"] (fun _ s =>
      decide ((((s.concept_storage 2).precondition_beliefs 1).array 0).stamp.ids = [5, 1, 5]) &&
      decide (((s.concept_storage 2).precondition_beliefs 1).itemsAmount = 1)) = true := by decide +kernel

/-- The filters accept `<a ==> b>` and reject `<a ==> a>`. -/
theorem filter_check : check sizes fuel [.text "<a ==> b>."] (fun n s =>
    (match NAL_Admissible n (s.termOf 2) with | .ok b => b | .error _ => false) &&
    (match NAL_Admissible n (Term_OverrideSubterm (s.termOf 2) 2 ((Term.zero).put 0 ((s.termOf 2).get 1))).2 with
      | .ok b => !b | .error _ => false)) = true := by decide +kernel

/-- The cases of **C50** happen: there are statements which are admissible, and statements which are not. -/
theorem C50_example : ∃ n s t1 t2, Reachable sizes n s ∧ Admissible n t1 ∧ ¬ Admissible n t2 := by
  obtain ⟨n, s, -, hr, h⟩ := of_check filter_check
  rw [Bool.and_eq_true] at h
  refine ⟨n, s, s.termOf 2, (Term_OverrideSubterm (s.termOf 2) 2 ((Term.zero).put 0 ((s.termOf 2).get 1))).2, hr, ?_, ?_⟩
  · cases hx : NAL_Admissible n (s.termOf 2) with
    | error _ => rw [hx] at h; cases h.1
    | ok b => rw [hx] at h; exact (C50_filter hx).1 h.1
  · cases hx : NAL_Admissible n (Term_OverrideSubterm (s.termOf 2) 2 ((Term.zero).put 0 ((s.termOf 2).get 1))).2 with
    | error _ => rw [hx] at h; cases h.2
    | ok b =>
      rw [hx] at h
      intro ha
      have := (C50_filter hx).2 ha
      rw [this] at h
      cases h.2

/-- The case of **C51** with a conclusion happens: an event and a belief of a reachable state have disjoint evidence, and
their conclusion, with the evidence of both, becomes a new event. -/
theorem C51_example : ∃ n s e c s', Reachable sizes n s ∧
    inferWith n e 1 s.currentTime c (s.concept_storage c).id s = .ok ((), s') ∧
    e.stamp.Disjoint (s.concept_storage c).belief.stamp ∧
    s.cycling_belief_events.itemsAmount = 0 ∧ s'.cycling_belief_events.itemsAmount = 1 ∧
    (s'.cycling_belief_event_storage (s'.cycling_belief_events.items 0).address).stamp.ids = [7, 1] := by
  obtain ⟨n, s, -, hr, h⟩ := of_check inference_check
  dsimp only at h
  cases hx : inferWith n (eventWith (Term_ExtractSubterm (s.termOf 2) 1) s.currentTime 7) 1 s.currentTime 2 (s.concept_storage 2).id s with
  | error _ => rw [hx] at h; cases h
  | ok r =>
    rw [hx] at h
    simp only [Bool.and_eq_true, decide_eq_true_eq, Bool.not_eq_true', disjoint_iff] at h
    exact ⟨n, s, _, 2, r.2, hr, hx, h.2, h.1.1.1, h.1.1.2, h.1.2⟩

/-- **C51 fails for an operation and its condition.** There is a history after which a link has the same evidence twice:
the condition and the operation were given the same evidence. -/
theorem C51_operation_overlap : ∃ n s c o i, Reachable sizes n s ∧
    i < ((s.concept_storage c).precondition_beliefs o).itemsAmount ∧
    ¬ (((s.concept_storage c).precondition_beliefs o).array i).stamp.ids.Nodup := by
  obtain ⟨n, s, -, hr, h⟩ := of_check overlap_check
  rw [Bool.and_eq_true, decide_eq_true_eq, decide_eq_true_eq] at h
  refine ⟨n, s, 2, 1, 0, hr, ?_, ?_⟩
  · rw [h.2]; exact Nat.zero_lt_one
  · rw [h.1]; decide

end Demo
end ONA
