import Verif.Model.Table
import Verif.Model.Usage
import Verif.Model.PriorityQueue
import Verif.Model.HashTable
import Verif.Model.InvertedAtomIndex
import Verif.Model.OccurrenceTimeIndex
import Verif.Model.Variable
/-
The global variables of the reasoner (src/Memory.c 27-52, 83-86, 151-156; src/Cycle.c 27-29; src/Event.c 27-28;
src/Globals.c 57; src/Decision.c 27-32; src/NAR.c 27-30; src/Stats.c 27-28; src/Variable.c 27) and the monad of
functions reading and writing them. Pointers to concepts and to buffered events are indices into their storage
arrays. The atom table (src/Narsese.c) is a separate argument `n` of the functions: between two inputs it does not
change, because every name used by inference is registered by `Narsese_INIT` (theorem `C32_initial_index`).
-/
namespace ONA

/-- `Concept` (src/Concept.h 48-63). -/
structure Concept where
  id : Int
  usage : Usage
  term : Term
  belief : Event
  belief_spike : Event
  predicted_belief : Event
  goal_spike : Event
  precondition_beliefs : Nat → Table
  implication_links : Table
  priority : ℚ
  processID : Int
  processID2 : Int
  processID3 : Int
  lastSelectionTime : Int

/-- `(Concept) {0}`. -/
def Concept.zero : Concept :=
  { id := 0, usage := ⟨0, 0⟩, term := Term.zero, belief := Event.zero, belief_spike := Event.zero
    predicted_belief := Event.zero, goal_spike := Event.zero, precondition_beliefs := fun _ => Table.zero
    implication_links := Table.zero, priority := 0, processID := 0, processID2 := 0, processID3 := 0
    lastSelectionTime := 0 }

/-- `Feedback` (src/Memory.h 63-67). -/
structure Feedback where
  subs : Substitution
  failed : Bool

/-- `Operation` (src/Memory.h 68-75). The callback is a function of its argument; callbacks which call back into the
reasoner are not modelled. -/
structure Operation where
  term : Term
  action : Option (Term → Feedback)
  arguments : Nat → Term
  stdinOutput : Bool

/-- `(Operation) {0}`. -/
def Operation.zero : Operation := ⟨Term.zero, none, fun _ => Term.zero, false⟩

/-- What is printed on the standard output by execution, decision making and question answering (src/Decision.c 206,
521; src/NAR.c 91-114). The lines about added and selected knowledge (src/Memory.c 237-281) are not modelled. -/
inductive Output where
  | decision (desire : ℚ) (implication : Implication)
  | executed (op : Term) (arguments : Term)
  | answerNone
  | answer (stamp : Stamp) (term : Term) (truth : Truth) (occurrenceTime : Int) (creationTime : Int)

/-- The global state, see the head of this file. `stdin` holds what the process will read for operations with
`stdinOutput` (src/Decision.c 218-240): `none` is end of file, the terms are already parsed. `stack`
is no variable of the program: it bounds the recursion of `Memory_AddEvent` (see there). -/
structure Sys where
  concepts : PriorityQueue ℚ Nat
  concept_storage : Nat → Concept
  HTconcepts : HashTable Nat Nat
  index : InvertedAtomIndex
  occurrenceTimeIndex : OccurrenceTimeIndex Nat
  cycling_belief_events : PriorityQueue ℚ Nat
  cycling_belief_event_storage : Nat → Event
  cycling_goal_events : Nat → PriorityQueue ℚ Nat
  cycling_goal_event_storage : Nat → Nat → Event
  operations : Nat → Operation
  concept_id : Int
  conceptPriorityThreshold : ℚ
  RESTRICTED_CONCEPT_CREATION : Bool
  selectedBeliefs : Nat → Event
  selectedBeliefsPriority : Nat → ℚ
  beliefsSelectedCnt : Nat
  selectedGoals : Nat → Event
  selectedGoalsPriority : Nat → ℚ
  goalsSelectedCnt : Nat
  conceptProcessID : Int
  conceptProcessID2 : Int
  conceptProcessID3 : Int
  Stats_countConceptsMatchedTotal : Int
  Stats_countConceptsMatchedMax : Int
  event : EventGlobals
  next : BitVec 64
  currentTime : Int
  initialized : Bool
  op_k : Nat
  CONDITION_THRESHOLD : ℚ
  DECISION_THRESHOLD : ℚ
  ANTICIPATION_THRESHOLD : ℚ
  ANTICIPATION_CONFIDENCE : ℚ
  MOTOR_BABBLING_CHANCE : ℚ
  BABBLING_OPS : Nat
  QUESTION_PRIMING : ℚ
  similarity_distance : ℚ
  stdin : List (Option Term)
  output : List Output
  stack : Nat

/-- Functions reading and writing the global state, possibly ending abnormally. -/
abbrev M := StateT Sys R

namespace M
variable {α β : Type}

theorem bind_ok {x : M α} {f : α → M β} {s s' : Sys} {b : β} :
    (x >>= f) s = .ok (b, s') ↔ ∃ a s1, x s = .ok (a, s1) ∧ f a s1 = .ok (b, s') := by
  show (StateT.bind x f) s = _ ↔ _
  unfold StateT.bind
  show ((x s >>= fun p => f p.1 p.2) : R _) = _ ↔ _
  rw [R.bind_eq_ok]
  constructor
  · rintro ⟨⟨a, s1⟩, h1, h2⟩; exact ⟨a, s1, h1, h2⟩
  · rintro ⟨a, s1, h1, h2⟩; exact ⟨⟨a, s1⟩, h1, h2⟩

@[simp] theorem pure_ok {a b : α} {s s' : Sys} : (pure a : M α) s = .ok (b, s') ↔ a = b ∧ s = s' := by
  show (Except.ok (a, s) : R _) = _ ↔ _
  simp

@[simp] theorem get_ok {s s' t : Sys} : (get : M Sys) s = .ok (t, s') ↔ s = t ∧ s = s' := by
  show (Except.ok (s, s) : R _) = _ ↔ _
  simp

@[simp] theorem set_ok {s s' t : Sys} {u : PUnit} : (set t : M PUnit) s = .ok (u, s') ↔ t = s' := by
  show (Except.ok (PUnit.unit, t) : R _) = _ ↔ _
  cases u
  simp

@[simp] theorem modify_ok {f : Sys → Sys} {s s' : Sys} {u : PUnit} : (modify f : M PUnit) s = .ok (u, s') ↔ f s = s' := by
  show (Except.ok (PUnit.unit, f s) : R _) = _ ↔ _
  cases u
  simp

@[simp] theorem lift_ok {x : R α} {s s' : Sys} {a : α} :
    (monadLift x : M α) s = .ok (a, s') ↔ x = .ok a ∧ s = s' := by
  show (StateT.lift x : M α) s = _ ↔ _
  unfold StateT.lift
  rw [R.bind_eq_ok]
  constructor
  · rintro ⟨b, h1, h2⟩
    cases h2
    exact ⟨h1, rfl⟩
  · rintro ⟨h1, h2⟩
    exact ⟨a, h1, by rw [h2]; rfl⟩

@[simp] theorem throw_ok {e : Err} {s s' : Sys} {a : α} : ¬ (throw e : M α) s = .ok (a, s') := by
  intro h
  cases h

end M
end ONA
