import Verif.Props.Decision
import Verif.Proofs.Demo
/-
Concrete histories, evaluated by the kernel, which meet the hypotheses of the theorems of Props/Decision.lean.
-/
namespace ONA

section
attribute [local instance] exactArith
open Demo

set_option maxRecDepth 100000

/-- Two operations which lead to `b`, the second more reliably, and their condition. -/
def demoChoice : List Line := [.op "^x", .op "^y", .motorbabbling 0, .text "<(a &/ ^x) =/> b>. {0.8 0.9}",
  .text "<(a &/ ^y) =/> b>.", .text "a. :|:"]

def demoChoiceTest (s s' : Sys) : Bool :=
  decide (s.MOTOR_BABBLING_CHANCE ≤ 0) && decide (executions s'.output = 1) && decide (executions s.output = 0)

theorem demoChoice_check : check2 sizes fuel demoChoice (.text "b! :|:") demoChoiceTest = true := by decide +kernel

/-- An operation is executed while babbling is off (C48_threshold). -/
example : ∃ n s n' s', Reachable sizes n s ∧ s.MOTOR_BABBLING_CHANCE ≤ 0 ∧ ∃ c : Call, c.Legal n s ∧ c.thinks = true ∧
    c.run sizes fuel n s = .ok (n', s') ∧ executions s.output = 0 ∧ executions s'.output = 1 := by
  obtain ⟨n, s, n', s', hr, hl, e, ht⟩ := of_check2 demoChoice_check
  simp only [demoChoiceTest, Bool.and_eq_true, decide_eq_true_eq] at ht
  exact ⟨n, s, n', s', hr, ht.1.1, _, hl, rfl, e, ht.2, ht.1.2⟩

/-- The goal `b` for the concept in cell 0. -/
def demoGoal (s : Sys) : Event :=
  { Event.zero with term := s.termOf 0, type := .goal, truth := ⟨1, 9 / 10⟩, occurrenceTime := s.currentTime }

def demoBestTest (n : Narsese) (s : Sys) : Bool :=
  decide ((s.linksFor 0 1).length = 1) && decide ((s.linksFor 0 2).length = 1) &&
    match Decision_BestCandidate n 0 (demoGoal s) s.currentTime s with
    | .ok (d, _) => d.execute && decide (d.operationID = 2)
    | .error _ => false

theorem demoBest_check : check sizes fuel demoChoice demoBestTest = true := by decide +kernel

/-- A choice between the links for two operations (C48_best). -/
example : ∃ n s, Good n s ∧ ∃ d s', (s.linksFor 0 1).length = 1 ∧ (s.linksFor 0 2).length = 1 ∧
    Decision_BestCandidate n 0 (demoGoal s) s.currentTime s = .ok (d, s') ∧ d.execute = true ∧ d.operationID = 2 := by
  obtain ⟨n, s, _, hr, ht⟩ := of_check demoBest_check
  unfold demoBestTest at ht
  split at ht
  · rename_i d s' e
    simp only [Bool.and_eq_true, decide_eq_true_eq] at ht
    exact ⟨n, s, (hr.good sizes_ok).1, d, s', ht.1.1, ht.1.2, e, ht.2.1, ht.2.2⟩
  · simp at ht

/-- The state in which the goal has been selected. -/
def demoSelected (s : Sys) : Sys :=
  { s with selectedGoals := fun _ => demoGoal s, selectedGoalsPriority := fun _ => 1, goalsSelectedCnt := 1 }

def demoRoundTest (n : Narsese) (s : Sys) : Bool :=
  decide (s.currentTime ≠ OCCURRENCE_ETERNAL) && decide (0 ≤ s.DECISION_THRESHOLD) &&
  decide (s.MOTOR_BABBLING_CHANCE ≤ 0) &&
  (match processSelectedGoals n 100 s.currentTime 0 (List.range 1) Decision.zero (demoSelected s) with
    | .ok (d, _) => d.execute && decide (d.operationID = 2)
    | .error _ => false) &&
  (match Cycle_ProcessAndInferGoalEvents n 100 (fun _ => pure ()) s.currentTime 0 (demoSelected s) with
    | .ok (_, s') => decide (executions s'.output = 1)
    | .error _ => false)

theorem demoRound_check : check sizes fuel demoChoice demoRoundTest = true := by decide +kernel

/-- Processing a selected goal, and executing an operation (C48_round, C48_act). -/
example : ∃ n s, Good n s ∧ SelectedGoals n s.goalsSelectedCnt s ∧ s.goalsSelectedCnt = 1 ∧ 0 ≤ s.DECISION_THRESHOLD ∧
    s.MOTOR_BABBLING_CHANCE ≤ 0 ∧
    (∃ best s', processSelectedGoals n 100 s.currentTime 0 (List.range 1) Decision.zero s = .ok (best, s') ∧
      best.execute = true ∧ best.operationID = 2) ∧
    ∃ s', Cycle_ProcessAndInferGoalEvents n 100 (fun _ => pure ()) s.currentTime 0 s = .ok ((), s') ∧
      executions s'.output = 1 := by
  obtain ⟨n, s, _, hr, ht⟩ := of_check demoRound_check
  have hg := (hr.good sizes_ok).1
  simp only [demoRoundTest, Bool.and_eq_true, decide_eq_true_eq] at ht
  obtain ⟨⟨⟨⟨h0, h1⟩, h2⟩, h3⟩, h4⟩ := ht
  split at h3
  · rename_i d s1 e
    split at h4
    · rename_i s2 e2
      rw [Bool.and_eq_true, decide_eq_true_eq] at h3
      refine ⟨n, demoSelected s, ?_, ?_, rfl, h1, h2, ⟨d, s1, e, h3.1, h3.2⟩, s2, e2, of_decide_eq_true h4⟩
      · exact hg.congr rfl hg.stdin
      · intro i _
        refine ⟨⟨(hg.concepts 0).term, ?_, Stamp.zero_wf⟩, ⟨?_, ?_⟩, ?_⟩
        · exact Truth.Valid.mk' unit01_one ⟨rfl, by norm_num, by norm_num⟩
        · show (0 : ℚ) ≤ 1; norm_num
        · show (1 : ℚ) ≤ 1; norm_num
        · show s.currentTime ≠ OCCURRENCE_ETERNAL
          exact h0
    · simp at h4
  · simp at h3

end
end ONA
