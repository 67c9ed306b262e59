import Verif.Spec.API
/-
Without goals (C73).
-/
namespace ONA

/-- There are no goals in the goal buffers. -/
def Sys.NoGoals (s : Sys) : Prop := ∀ layer, (s.cycling_goal_events layer).contents = []

variable [Arith]

/-- The text is a goal: it ends with an exclamation mark. -/
def GoalText (n : Narsese) (text : CStr) : Prop :=
  ∃ sentence n', Narsese_Sentence n text = .ok (sentence, n') ∧ sentence.punctuation = '!'

/-- The call tells the system a goal. -/
def Call.GivesGoal (n : Narsese) : Call → Prop
  | .addInput _ type _ _ _ => type = .goal
  | .addNarsese text _ _ => GoalText n text
  | .command (.query _ text) => GoalText n text
  | .command (.narsese text) => GoalText n text
  | _ => False

/-- The states after `NAR_INIT` and any sequence of legal calls none of which tells a goal, and what was printed since the
first `NAR_INIT`. -/
inductive WithoutGoals (z : Sizes) : Narsese → Sys → List Output → Prop where
  | start {s0 n s} : Startable s0 → NAR_INIT_sizes z.memory z.atoms s0 = .ok (n, s) → WithoutGoals z n s []
  | call {n s n' s'} {log new : List Output} (fuel : Fuel) (c : Call) : WithoutGoals z n s log → c.Legal n s →
      ¬ c.GivesGoal n → c.run z fuel n s = .ok (n', s') → s'.output = s.output ++ new →
      WithoutGoals z n' s' (log ++ new)

end ONA
