import Verif.Props.System
import Verif.Proofs.Demo
/-
Concrete histories, evaluated by the kernel, which meet the hypotheses of the theorems of Props/System.lean.
-/
namespace ONA

/-! ### Concrete histories meeting the hypotheses -/
section
attribute [local instance] exactArith
open Demo

set_option maxRecDepth 100000

/-- A conjunction. -/
def demoBeliefs : List Line := [.text "(a && b)."]

def demoBeliefsTest (_ : Narsese) (s : Sys) : Bool :=
  decide (s.live.length = 4) && decide (s.cycling_belief_events.contents.length = 3)

theorem demoBeliefs_check : check sizes fuel demoBeliefs demoBeliefsTest = true := by decide +kernel

/-- There is a reachable state with several concepts and several buffered events (C37, C41, C42, C43, C63, C64). -/
example : ∃ n s, Reachable sizes n s ∧ s.live.length = 4 ∧ s.cycling_belief_events.contents.length = 3 := by
  obtain ⟨n, s, _, hr, ht⟩ := of_check demoBeliefs_check
  simp only [demoBeliefsTest, Bool.and_eq_true, decide_eq_true_eq] at ht
  exact ⟨n, s, hr, ht.1, ht.2⟩

/-- Two observations, one after the other. -/
def demoLearn : List Line := [.motorbabbling 0, .text "a. :|:", .text "b. :|:"]

def demoLearnTest (_ : Narsese) (s : Sys) : Bool :=
  decide (0 < ((s.concept_storage 1).precondition_beliefs 0).itemsAmount) &&
    decide (0 < (((s.concept_storage 1).precondition_beliefs 0).array 0).truth.confidence)

theorem demoLearn_check : check sizes fuel demoLearn demoLearnTest = true := by decide +kernel

/-- There is a reachable state with a learned link (C11, C56, C64). -/
example : ∃ n s, Reachable sizes n s ∧ ∃ l, StoredLink s l ∧ 0 < l.truth.confidence := by
  obtain ⟨n, s, _, hr, ht⟩ := of_check demoLearn_check
  simp only [demoLearnTest, Bool.and_eq_true, decide_eq_true_eq] at ht
  exact ⟨n, s, hr, _, ⟨_, .precondition_beliefs 1 0, 0, ht.1, rfl⟩, ht.2⟩

/-- Several preconditions for a goal. -/
def demoGoals : List Line := [.motorbabbling 0, .text "<a =/> b>.", .text "<c =/> b>.", .text "b! :|:"]

def demoGoalsTest (_ : Narsese) (s : Sys) : Bool := decide ((s.cycling_goal_events 2).contents.length = 1)

theorem demoGoals_check : check sizes fuel demoGoals demoGoalsTest = true := by decide +kernel

/-- There is a reachable state with a goal in a deeper layer (C43). -/
example : ∃ n s, Reachable sizes n s ∧ ∃ layer, 1 < layer ∧ (s.cycling_goal_events layer).contents.length = 1 := by
  obtain ⟨n, s, _, hr, ht⟩ := of_check demoGoals_check
  exact ⟨n, s, hr, 2, by norm_num, of_decide_eq_true ht⟩

def demoReviseTest (s s' : Sys) : Bool :=
  decide (0 ∈ s.live) && decide (0 ∈ s'.live) && decide (s'.idOf 0 = s.idOf 0) &&
    decide ((s.concept_storage 0).belief.type ≠ .deleted) &&
    decide ((s.concept_storage 0).belief.truth.confidence < (s'.concept_storage 0).belief.truth.confidence)

theorem demoRevise_check : check2 sizes fuel [.text "a. {0.5 0.5}"] (.text "a.") demoReviseTest = true := by
  decide +kernel

/-- A call after which the belief of a concept is strictly more confident (C44). -/
example : ∃ n s n' s', Reachable sizes n s ∧ ∃ c : Call, c.Legal n s ∧ c.run sizes fuel n s = .ok (n', s') ∧
    0 ∈ s.live ∧ 0 ∈ s'.live ∧ s'.idOf 0 = s.idOf 0 ∧ (s.concept_storage 0).belief.type ≠ .deleted ∧
    (s.concept_storage 0).belief.truth.confidence < (s'.concept_storage 0).belief.truth.confidence := by
  obtain ⟨n, s, n', s', hr, hl, e, ht⟩ := of_check2 demoRevise_check
  simp only [demoReviseTest, Bool.and_eq_true, decide_eq_true_eq] at ht
  exact ⟨n, s, n', s', hr, _, hl, e, ht.1.1.1.1, ht.1.1.1.2, ht.1.1.2, ht.1.2, ht.2⟩

/-- Knowledge how to reach `b` by an operation, the condition, and the goal. -/
def demoAct : List Line := [.op "^op", .motorbabbling 0, .text "<(a &/ ^op) =/> b>.", .text "a. :|:"]

def demoActTest (s s' : Sys) : Bool :=
  decide (s'.currentTime = s.currentTime + 2) && decide (executions s'.output = 1)

theorem demoAct_check : check2 sizes fuel demoAct (.text "b! :|:") demoActTest = true := by decide +kernel

/-- The clock advances by two in a call with one cycle: an operation is executed (C46). -/
example : ∃ n s n' s', Reachable sizes n s ∧ ∃ c : Call, c.Legal n s ∧ c.run sizes fuel n s = .ok (n', s') ∧
    s'.currentTime = s.currentTime + 2 ∧ executions s'.output = 1 := by
  obtain ⟨n, s, n', s', hr, hl, e, ht⟩ := of_check2 demoAct_check
  simp only [demoActTest, Bool.and_eq_true, decide_eq_true_eq] at ht
  exact ⟨n, s, n', s', hr, _, hl, e, ht.1, ht.2⟩

end
end ONA
