import Verif.Spec.Admission
import Verif.Spec.API
/-
What happens to the events which wait for attention.
-/
namespace ONA
variable [Arith]

/-- The events waiting in a buffer, each with its priority; their order means nothing. -/
abbrev Crowd := List (ℚ × Event)

/-- The waiting beliefs and events. -/
def Sys.waitingBeliefs (s : Sys) : Crowd := waitingIn s.cycling_belief_events s.cycling_belief_event_storage

/-- The waiting goals of a layer. -/
def Sys.waitingGoals (s : Sys) (layer : Nat) : Crowd := waitingIn (s.cycling_goal_events layer) (s.cycling_goal_event_storage layer)

/-- `x` is one of the most urgent. -/
def Crowd.MostUrgent (a : Crowd) (x : ℚ × Event) : Prop := x ∈ a ∧ ∀ y ∈ a, y.1 ≤ x.1

/-- `x` is one of the least urgent. -/
def Crowd.LeastUrgent (a : Crowd) (x : ℚ × Event) : Prop := x ∈ a ∧ ∀ y ∈ a, x.1 ≤ y.1

/-- What can happen to those waiting for `room` places. -/
inductive Crowd.Move (room : Nat) (a b : Crowd) : Prop where
  /-- an event which is not there yet comes, and may replace one of the least urgent if there is no place -/
  | comes (p : ℚ) (e : Event) (entered : Bool) : 0 < p → p ≤ 1 → MIN_CONFIDENCE ≤ e.truth.confidence → (∀ x ∈ a, ¬ Alike e x.2) →
      Offered room p e a b entered → Crowd.Move room a b
  /-- one of the most urgent gets attention -/
  | taken (x : ℚ × Event) : a.MostUrgent x → a.Perm (x :: b) → Crowd.Move room a b
  /-- all become less urgent -/
  | fade : b.Perm (a.map fun x => (fmul x.1 (rnd (9999 / 10000)), x.2)) → Crowd.Move room a b

/-- What can happen to goals: also, all are dropped (when something is done). -/
inductive Crowd.GoalMove (room : Nat) (a b : Crowd) : Prop where
  | move : Crowd.Move room a b → Crowd.GoalMove room a b
  | dropped : b = [] → Crowd.GoalMove room a b

/-- Any number of moves. -/
inductive Moves (move : Crowd → Crowd → Prop) (a : Crowd) : Crowd → Prop where
  | none : Moves move a a
  | more {b c : Crowd} : Moves move a b → move b c → Moves move a c

/-- One event is taken from those waiting, one of the most urgent, if there is any. -/
def Selects (a b : Crowd) (taken : Option (ℚ × Event)) : Prop :=
  match taken with
  | none => a = [] ∧ b = []
  | some x => a.MostUrgent x ∧ a.Perm (x :: b)

/-- The belief or event selected for this cycle. -/
def Sys.selectedBelief (s : Sys) : Option (ℚ × Event) :=
  if s.beliefsSelectedCnt = 0 then none else some (s.selectedBeliefsPriority 0, s.selectedBeliefs 0)

/-- The goal selected. -/
def Sys.selectedGoal (s : Sys) : Option (ℚ × Event) :=
  if s.goalsSelectedCnt = 0 then none else some (s.selectedGoalsPriority 0, s.selectedGoals 0)

end ONA
