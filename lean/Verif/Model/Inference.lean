import Verif.Model.Event
import Verif.Model.Narsese
/-
Model of src/Inference.c. The `bool *success` out-parameters become `Option`.
-/
namespace ONA
variable [Arith]

/-- Conversion of a double to `long` (truncation towards zero). -/
def ctrunc (x : ℚ) : Int := x.num.tdiv x.den

/-- Conversion of a `long` to double. -/
def ofLong (n : Int) : ℚ := rnd (n : ℚ)

/-- `weighted_average` (src/Inference.c 35-38). -/
def weighted_average (a1 a2 w1 w2 : ℚ) : R ℚ :=
  fdiv (fadd (fmul a1 w1) (fmul a2 w2)) (fadd w1 w2)

/-- `Inference_BeliefIntersection` (src/Inference.c 41-52). -/
def Inference_BeliefIntersection (a b : Event) : R (Option Event) := do
  cassert (decide (b.occurrenceTime ≥ a.occurrenceTime)) "after(b,a) violated in Inference_BeliefIntersection"
  let conclusionStamp := Stamp_make a.stamp b.stamp
  let creationTime := max a.creationTime b.creationTime
  let conclusionTime := b.occurrenceTime
  let truthA := Truth_Projection a.truth a.occurrenceTime conclusionTime
  let truthB := b.truth
  let (success, conclusionTerm) := Narsese_Sequence a.term b.term
  if success then
    .ok (some { Event.zero with
      term := conclusionTerm, type := .belief, truth := Truth_Intersection truthA truthB, stamp := conclusionStamp
      occurrenceTime := conclusionTime, creationTime := creationTime })
  else .ok none

/-- `Inference_BeliefInduction` (src/Inference.c 55-68). -/
def Inference_BeliefInduction (a b : Event) : R (Option Implication) := do
  cassert (decide (b.occurrenceTime ≥ a.occurrenceTime)) "after(b,a) violated in Inference_BeliefInduction"
  let conclusionStamp := Stamp_make a.stamp b.stamp
  let creationTime := max a.creationTime b.creationTime
  let conclusionTime := b.occurrenceTime
  let truthA := Truth_Projection a.truth a.occurrenceTime conclusionTime
  let truthB := b.truth
  let (success, term) := buildCompound (copulaAtom TEMPORAL_IMPLICATION) a.term b.term
  if success then do
    let truth ← Truth_Induction truthB truthA
    .ok (some { Implication.zero with
      term := term, truth := truth, stamp := conclusionStamp
      occurrenceTimeOffset := ofLong (b.occurrenceTime - a.occurrenceTime), creationTime := creationTime })
  else .ok none

/-- `Inference_EventRevision` (src/Inference.c 72-81). -/
def Inference_EventRevision (a b : Event) : R Event := do
  let conclusionStamp := Stamp_make a.stamp b.stamp
  let creationTime := max a.creationTime b.creationTime
  let conclusionTime := b.occurrenceTime
  let truthA := Truth_Projection a.truth a.occurrenceTime conclusionTime
  let truth ← Truth_Revision truthA b.truth
  .ok { Event.zero with
    term := a.term, type := a.type, truth := truth, stamp := conclusionStamp, occurrenceTime := conclusionTime
    creationTime := creationTime }

/-- `Inference_ImplicationRevision` (src/Inference.c 84-95). -/
def Inference_ImplicationRevision (a b : Implication) : R Implication := do
  let conclusionStamp := Stamp_make a.stamp b.stamp
  let creationTime := max a.creationTime b.creationTime
  let w1 ← Truth_c2w a.truth.confidence
  let w2 ← Truth_c2w b.truth.confidence
  let occurrenceTimeOffsetAvg ← weighted_average a.occurrenceTimeOffset b.occurrenceTimeOffset w1 w2
  let truth ← Truth_Revision a.truth b.truth
  .ok { term := a.term, truth := truth, stamp := conclusionStamp, occurrenceTimeOffset := occurrenceTimeOffsetAvg
        sourceConcept := a.sourceConcept, sourceConceptId := a.sourceConceptId, creationTime := creationTime }

/-- `Inference_GoalDeduction` (src/Inference.c 99-111). -/
def Inference_GoalDeduction (n : Narsese) (component : Event) (compound : Implication) (currentTime : Int) : R Event := do
  cassert (Narsese_copulaEquals n (compound.term.get 0) TEMPORAL_IMPLICATION ||
    Narsese_copulaEquals n (compound.term.get 0) IMPLICATION) "Not a valid implication term!"
  let conclusionStamp := Stamp_make component.stamp compound.stamp
  let creationTime := max component.creationTime compound.creationTime
  let precondition := Term_ExtractSubterm compound.term 1
  .ok { Event.zero with
    term := Narsese_GetPreconditionWithoutOp n termDepth precondition, type := .goal
    truth := Truth_GoalDeduction component.truth compound.truth, stamp := conclusionStamp
    occurrenceTime := currentTime, creationTime := creationTime }

/-- `Inference_EventUpdate` (src/Inference.c 114-120). -/
def Inference_EventUpdate (ev : Event) (targetTime : Int) : Event :=
  { ev with truth := Truth_Projection ev.truth ev.occurrenceTime targetTime, occurrenceTime := targetTime }

/-- `Inference_GoalSequenceDeduction` (src/Inference.c 123-134). -/
def Inference_GoalSequenceDeduction (compound component : Event) (currentTime : Int) : Event :=
  let conclusionStamp := Stamp_make component.stamp compound.stamp
  let creationTime := max component.creationTime compound.creationTime
  let compoundUpdated := Inference_EventUpdate compound currentTime
  let componentUpdated := Inference_EventUpdate component currentTime
  { Event.zero with
    term := compound.term, type := .goal
    truth := Truth_GoalDeduction compoundUpdated.truth componentUpdated.truth, stamp := conclusionStamp
    occurrenceTime := currentTime, creationTime := creationTime }

/-- `Inference_RevisionAndChoice` (src/Inference.c 137-179): the result and `*revised`. -/
def Inference_RevisionAndChoice (n : Narsese) (existing_potential incoming_spike : Event) : R (Event × Bool) :=
  if existing_potential.type = .deleted then .ok (incoming_spike, false)
  else
    let laterOccurrence :=
      if existing_potential.occurrenceTime > incoming_spike.occurrenceTime then existing_potential.occurrenceTime
      else incoming_spike.occurrenceTime
    let existing_updated := Inference_EventUpdate existing_potential laterOccurrence
    let incoming_updated := Inference_EventUpdate incoming_spike laterOccurrence
    let overlap := Stamp_checkOverlap incoming_spike.stamp existing_potential.stamp
    let isDepVarConj := (Narsese_copulaEquals n (incoming_spike.term.get 0) CONJUNCTION ||
      Narsese_copulaEquals n (incoming_spike.term.get 0) SEQUENCE) &&
      Variable_hasVariable n incoming_spike.term false true false
    if overlap || isDepVarConj ||
        (decide (existing_potential.occurrenceTime ≠ OCCURRENCE_ETERNAL) &&
          decide (existing_potential.occurrenceTime ≠ incoming_spike.occurrenceTime)) ||
        !decide (existing_potential.term = incoming_spike.term) then
      if incoming_updated.truth.confidence > existing_updated.truth.confidence then .ok (incoming_spike, false)
      else .ok (existing_potential, false)
    else do
      let revised_spike ← Inference_EventRevision existing_updated incoming_updated
      if revised_spike.truth.confidence ≥ existing_updated.truth.confidence then .ok (revised_spike, true)
      else .error (.assertFail "Revision outcome can't be lower in confidence than existing event")

/-- `Inference_BeliefDeduction` (src/Inference.c 182-194). -/
def Inference_BeliefDeduction (n : Narsese) (component : Event) (compound : Implication) : R Event := do
  cassert (Narsese_copulaEquals n (compound.term.get 0) TEMPORAL_IMPLICATION ||
    Narsese_copulaEquals n (compound.term.get 0) IMPLICATION) "Not a valid implication term!"
  let conclusionStamp := Stamp_make component.stamp compound.stamp
  let creationTime := max component.creationTime compound.creationTime
  let postcondition := Term_ExtractSubterm compound.term 2
  .ok { Event.zero with
    term := postcondition, type := .belief, truth := Truth_Deduction compound.truth component.truth
    stamp := conclusionStamp
    occurrenceTime := if component.occurrenceTime = OCCURRENCE_ETERNAL then OCCURRENCE_ETERNAL
      else ctrunc (fadd (ofLong component.occurrenceTime) compound.occurrenceTimeOffset)
    creationTime := creationTime }

end ONA
