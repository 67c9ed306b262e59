import Verif.Model.Truth
import Verif.Model.Stamp
import Verif.Model.Term
/-
Model of src/Event.c, src/Event.h and src/Implication.h. Times are `Int` (C `long`, no overflow).
-/
namespace ONA

/-- Event types (src/Event.h 48-50): `EVENT_TYPE_DELETED` 0, `EVENT_TYPE_GOAL` 1, `EVENT_TYPE_BELIEF` 2. -/
inductive EventType where
  | deleted
  | goal
  | belief
deriving DecidableEq, Repr

/-- `Event` (src/Event.h 51-61). -/
structure Event where
  term : Term
  type : EventType
  truth : Truth
  stamp : Stamp
  occurrenceTime : Int
  occurrenceTimeOffset : ℚ
  processed : Bool
  creationTime : Int
  input : Bool

/-- `(Event) {0}`. -/
def Event.zero : Event :=
  ⟨Term.zero, .deleted, ⟨0, 0⟩, Stamp.zero, 0, 0, false, 0, false⟩

/-- `Implication` (src/Implication.h 44-54). `sourceConcept` is a pointer to a concept: an index into the concept
storage, or NULL. -/
structure Implication where
  term : Term
  truth : Truth
  stamp : Stamp
  occurrenceTimeOffset : ℚ
  sourceConcept : Option Nat
  sourceConceptId : Int
  creationTime : Int

/-- `(Implication) {0}`. -/
def Implication.zero : Implication := ⟨Term.zero, ⟨0, 0⟩, Stamp.zero, 0, none, 0, 0⟩

/-- The globals of src/Event.c 27-28. -/
structure EventGlobals where
  base : Int
  importstamp : Stamp

/-- Program start (src/Event.c 27-28). -/
def EventGlobals.start : EventGlobals := ⟨1, Stamp.zero⟩

/-- The stamp with a single id: `(Stamp) { .evidentialBase = { b } }`. -/
def Stamp.single (b : Int) : Stamp := ⟨fun i => if i = 0 then b else 0⟩

/-- `Event_InputEvent` (src/Event.c 30-48). -/
def Event_InputEvent (g : EventGlobals) (term : Term) (type : EventType) (truth : Truth) (occurrenceTimeOffset : ℚ)
    (currentTime : Int) : Event × EventGlobals :=
  let stamp := Stamp.single g.base
  let g := { g with base := g.base + 1 }
  let (stamp, g) :=
    if g.importstamp.evidentialBase 0 ≠ 0 then (g.importstamp, { base := g.base - 1, importstamp := Stamp.zero })
    else (stamp, g)
  ({ term := term, type := type, truth := truth, stamp := stamp, occurrenceTime := currentTime
     occurrenceTimeOffset := occurrenceTimeOffset, processed := false, creationTime := currentTime, input := true }, g)

/-- `Event_INIT` (src/Event.c 50-53). -/
def Event_INIT (g : EventGlobals) : EventGlobals := { g with base := 1 }

/-- `Event_Equal` (src/Event.c 55-58). -/
def Event_Equal (event existing : Event) : Bool :=
  Truth_Equal event.truth existing.truth && decide (event.occurrenceTime = existing.occurrenceTime) &&
    decide (event.term = existing.term) && Stamp_Equal event.stamp existing.stamp

/-- `Event_Eternalized` (src/Event.c 60-69). -/
def Event_Eternalized [Arith] (event : Event) : R Event :=
  if event.occurrenceTime ≠ OCCURRENCE_ETERNAL then do
    let truth ← Truth_Eternalize event.truth
    .ok { event with occurrenceTime := OCCURRENCE_ETERNAL, truth := truth }
  else .ok event

/-- `Event_EqualTermEqualStampLessConfidentThan` (src/Event.c 71-74). -/
def Event_EqualTermEqualStampLessConfidentThan (event existing : Event) : Bool :=
  decide (event.truth.confidence ≤ existing.truth.confidence) &&
    decide (event.occurrenceTime = existing.occurrenceTime) && decide (event.term = existing.term) &&
    Stamp_Equal event.stamp existing.stamp

end ONA
