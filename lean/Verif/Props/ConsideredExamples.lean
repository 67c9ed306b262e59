import Verif.Props.Considered
import Verif.Proofs.Demo
/-
Example for C48 (caution), evaluated by the kernel.
-/
namespace ONA
namespace Demo
attribute [local instance] exactArith
set_option maxRecDepth 100000

/-- The decision to execute the first operation. -/
def carefree (s : Sys) : Decision := { Decision.zero with operationID := 1, operationTerm := (s.operations 0).term, desire := 1 }

/-- What the link says about it. -/
def concernB (n : Narsese) (s : Sys) (c : Nat) (link : Implication) : Option Event :=
  match link.sourceConcept with
  | none => none
  | some p =>
    if decide ((s.concept_storage c).goal_spike.type ≠ .deleted) &&
      decide (s.currentTime - (s.concept_storage c).goal_spike.occurrenceTime < EVENT_BELIEF_DISTANCE) &&
      decide ((s.concept_storage p).belief_spike.type ≠ .deleted) &&
      decide (s.currentTime - (s.concept_storage p).belief_spike.occurrenceTime < EVENT_BELIEF_DISTANCE) &&
      decide (Narsese_OperationSequenceAppendLeftNested n termDepth Term.zero (Term_ExtractSubterm link.term 1) =
        (true, (carefree s).operationTerm)) then
      match Inference_GoalDeduction n (s.concept_storage c).goal_spike link s.currentTime with
      | .ok ctx => some (Inference_GoalSequenceDeduction ctx (s.concept_storage p).belief_spike s.currentTime)
      | .error _ => none
    else none

theorem concern {n : Narsese} {s : Sys} {c : Nat} {link : Implication} {e : Event} (h : concernB n s c link = some e) :
    ConcernOf n s (carefree s) c link e := by
  unfold concernB at h
  cases hp : link.sourceConcept with
  | none => rw [hp] at h; cases h
  | some p =>
    rw [hp] at h
    dsimp only at h
    split at h
    · rename_i hx
      simp only [Bool.and_eq_true, decide_eq_true_eq] at hx
      obtain ⟨⟨⟨⟨h1, h2⟩, h3⟩, h4⟩, h5⟩ := hx
      cases hc : Inference_GoalDeduction n (s.concept_storage c).goal_spike link s.currentTime with
      | error _ => rw [hc] at h; cases h
      | ok ctx =>
        rw [hc] at h
        cases h
        exact ⟨h1, h2, p, ctx, hp, h3, h4, h5, hc, rfl⟩
    · cases h

theorem concern_unique {n : Narsese} {s : Sys} {d : Decision} {c : Nat} {link : Implication} {e e' : Event} (h : ConcernOf n s d c link e)
    (h' : ConcernOf n s d c link e') : e' = e := by
  obtain ⟨-, -, p, ctx, hp, -, -, -, hc, rfl⟩ := h
  obtain ⟨-, -, p', ctx', hp', -, -, -, hc', rfl⟩ := h'
  cases hp.symm.trans hp'
  cases hc.symm.trans hc'
  rfl

/-- `h` is to be avoided, but `^x` leads to it, since `a` holds. -/
def demoCaution : List Line := [.op "^x", .motorbabbling 0, .text "<(a &/ ^x) =/> h>.", .text "a. :|:", .text "h! :|: {0 0.9}"]

theorem caution_check : check sizes fuel demoCaution (fun n s =>
    decide (0 ∈ s.live) && s.live.all (fun c => decide (c = 0) || decide (((s.concept_storage c).precondition_beliefs 1).itemsAmount = 0)) &&
    decide (((s.concept_storage 0).precondition_beliefs 1).itemsAmount = 1) &&
    (match concernB n s 0 (((s.concept_storage 0).precondition_beliefs 1).array 0) with
      | some e => Stamp_checkOverlap e.stamp e.stamp && decide (Truth_Expectation e.truth < 1 / 2)
      | none => false) &&
    (match Decision_ConsiderNegativeOutcomes n s (carefree s) with
      | .ok r => decide (r.operationID = 0)
      | .error _ => false)) = true := by decide +kernel

/-- The case of **C48** (caution) happens. -/
theorem C48_caution_example : ∃ n s r e0, Reachable sizes n s ∧ Decision_ConsiderNegativeOutcomes n s (carefree s) = .ok r ∧
    (carefree s).operationID = 1 ∧ Concern n s (carefree s) e0 ∧ (∀ e, Concern n s (carefree s) e → e = e0) ∧
    Stamp_checkOverlap e0.stamp e0.stamp = true ∧ Truth_Expectation e0.truth < 1 / 2 ∧ r.operationID = 0 := by
  obtain ⟨n, s, -, hr, h⟩ := of_check caution_check
  simp only [Bool.and_eq_true, Bool.or_eq_true, decide_eq_true_eq, List.all_eq_true] at h
  obtain ⟨⟨⟨⟨h1, h2⟩, h3⟩, h4⟩, h5⟩ := h
  cases hc : concernB n s 0 (((s.concept_storage 0).precondition_beliefs 1).array 0) with
  | none => rw [hc] at h4; cases h4
  | some e0 =>
    rw [hc] at h4
    simp only [Bool.and_eq_true, decide_eq_true_eq] at h4
    cases hd : Decision_ConsiderNegativeOutcomes n s (carefree s) with
    | error _ => rw [hd] at h5; cases h5
    | ok r =>
      rw [hd] at h5
      simp only [decide_eq_true_eq] at h5
      have hl : s.linksFor 0 1 = [((s.concept_storage 0).precondition_beliefs 1).array 0] := by
        unfold Sys.linksFor Table.entries
        rw [h3]
        rfl
      have hcon := concern hc
      refine ⟨n, s, r, e0, hr, hd, rfl, ⟨0, h1, _, ?_, hcon⟩, ?_, h4.1, h4.2, h5⟩
      · show _ ∈ s.linksFor 0 1
        rw [hl]
        exact List.mem_singleton.2 rfl
      · rintro e ⟨c, hcl, link, hlink, hce⟩
        rcases h2 c hcl with rfl | hx
        · replace hlink : link ∈ s.linksFor 0 1 := hlink
          rw [hl, List.mem_singleton] at hlink
          subst hlink
          exact concern_unique hcon hce
        · replace hlink : link ∈ ((s.concept_storage c).precondition_beliefs 1).entries := hlink
          unfold Table.entries at hlink
          rw [hx] at hlink
          cases hlink

end Demo
end ONA
