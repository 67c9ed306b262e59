import Verif.Spec.Links
import Verif.Model.Cycle
/-
Learning from experience: what an observed succession of events has to be like for a link to be learned from it.
-/
namespace ONA
variable [Arith]

/-- The concept in cell `c` is among the recent ones. -/
def Sys.Recent (s : Sys) (c : Nat) : Prop :=
  ∃ k < s.occurrenceTimeIndex.itemsAmount, s.occurrenceTimeIndex.getKthNewestElement k = .ok (some c)

/-- It stays so when one more event happens. -/
def Sys.StillRecent (s : Sys) (c : Nat) : Prop :=
  ∃ k < s.occurrenceTimeIndex.itemsAmount, k + 1 < OCCURRENCE_TIME_INDEX_SIZE ∧
    s.occurrenceTimeIndex.getKthNewestElement k = .ok (some c)

/-- There is a concept for the term. -/
def Sys.HasConcept (s : Sys) (t : Term) : Prop := ∃ c ∈ s.live, s.termOf c = t

/-- Induction from the two events gives a link which is strong enough to be kept, and well-formed. -/
structure Induces (n : Narsese) (a b : Event) (link : Implication) : Prop where
  induction : Inference_BeliefInduction a b = .ok (some link)
  confident : MIN_CONFIDENCE ≤ link.truth.confidence
  admissible : NAL_Admissible n link.term = .ok true
  /-- the priority it is added with: its expectation, less for complex terms -/
  priority : ∀ w, fdiv 1 (Arith.log2 (fadd 1 (Term_Complexity link.term : ℚ))) = .ok w →
    0 < fmul (Truth_Expectation link.truth) w

/-- Cell `p` holds the concept of an event, and cell `o` that of an operation, and the first, the second and then `b` were
observed one after the other, within a short time, so that `link`, saying that the first together with the operation leads to
`b`, can be learned. -/
structure Sys.Teaches (n : Narsese) (s : Sys) (now : Int) (p o : Nat) (b : Event) (link : Implication) : Prop where
  /-- The operation was executed, before `b`, but not long before. -/
  executed : s.operationID n (s.termOf o) ≠ 0
  executed_type : (s.concept_storage o).belief_spike.type ≠ .deleted
  executed_known : (s.concept_storage o).belief_spike.creationTime < now
  executed_before : (s.concept_storage o).belief_spike.occurrenceTime < b.occurrenceTime
  executed_near : b.occurrenceTime - (s.concept_storage o).belief_spike.occurrenceTime < EVENT_BELIEF_DISTANCE
  executed_selected : ((s.concept_storage o).lastSelectionTime - b.occurrenceTime).natAbs < EVENT_BELIEF_DISTANCE
  /-- The first event happened before the operation, but not long before. -/
  happened : s.operationID n (s.termOf p) = 0
  happened_type : (s.concept_storage p).belief_spike.type ≠ .deleted
  happened_known : (s.concept_storage p).belief_spike.creationTime < now
  happened_before : (s.concept_storage p).belief_spike.occurrenceTime < (s.concept_storage o).belief_spike.occurrenceTime
  happened_near : b.occurrenceTime - (s.concept_storage p).belief_spike.occurrenceTime < EVENT_BELIEF_DISTANCE
  happened_selected : ((s.concept_storage p).lastSelectionTime - b.occurrenceTime).natAbs < EVENT_BELIEF_DISTANCE
  happened_plain : notHigherOrder n (s.concept_storage p).belief_spike.term = true
  /-- It is not based on the same evidence as `b`. -/
  independent : Stamp_checkOverlap (s.concept_storage p).belief_spike.stamp b.stamp = false
  /-- The two make a sequence, from which `b` follows. -/
  seq : ∃ (seq : Event) (t : Term),
    Inference_BeliefIntersection (s.concept_storage p).belief_spike (s.concept_storage o).belief_spike = .ok (some seq) ∧
    MIN_CONFIDENCE ≤ seq.truth.confidence ∧
    Narsese_OperationSequenceAppendLeftNested n termDepth (s.concept_storage p).belief_spike.term
      (s.concept_storage o).belief_spike.term = (true, t) ∧
    Stamp_checkOverlap seq.stamp b.stamp = false ∧
    s.HasConcept (Narsese_GetPreconditionWithoutOp n termDepth t) ∧ Narsese_GetPreconditionWithoutOp n termDepth t ≠ b.term ∧
    Induces n { seq with term := t } b link
  /-- The operation is not one of another agent. -/
  own : ¬ Foreign n link.term

/-- The event is the one attended to next: the belief event with the highest priority. -/
def Sys.Attends (s : Sys) (b : Event) : Prop :=
  ∃ x ∈ s.cycling_belief_events.contents, s.cycling_belief_event_storage x.address = b ∧
    ∀ y ∈ s.cycling_belief_events.contents, y ≠ x → y.priority < x.priority

/-- The term of the concept in cell `c` does not match the term. -/
def Sys.Differs (n : Narsese) (s : Sys) (c : Nat) (t : Term) : Prop :=
  ∀ subs, Variable_Unify n (s.termOf c) t = .ok subs → subs.success = false

/-- An event to correlate others with: recent, not yet processed, without variables, and neither a sequence nor the value of a
continuous property nor an operation. -/
structure Sys.Outcome (n : Narsese) (s : Sys) (b : Event) : Prop where
  timed : b.occurrenceTime ≠ OCCURRENCE_ETERNAL
  recent : s.currentTime - b.occurrenceTime < EVENT_BELIEF_DISTANCE
  fresh : b.processed = false
  ground : Variable_hasVariable n b.term true true true = false
  noSequence : Narsese_copulaEquals n (b.term.get 0) SEQUENCE = false
  noValue : Narsese_copulaEquals n (b.term.get 0) HAS_CONTINUOUS_PROPERTY = true →
    Narsese_copulaEquals n (b.term.get 1) PRODUCT = true
  noOperation : s.operationID n b.term = 0

/-- `link` can be learned from what happened in the cells `p` and `o` now that `b` happens: all of it is recent, and the new event
says nothing about the other two. -/
structure Ready (n : Narsese) (s : Sys) (p o : Nat) (b : Event) (link : Implication) : Prop where
  outcome : s.Outcome n b
  teaches : s.Teaches n s.currentTime p o b link
  recent_first : s.Recent p
  recent_second : s.Recent o
  live_first : p ∈ s.live
  live_second : o ∈ s.live
  differs_first : s.Differs n p b.term
  differs_second : s.Differs n o b.term

/-- The event is new: it is based on evidence none of the buffered events and none of the observed ones is based on. -/
def Sys.News (s : Sys) (b : Event) : Prop :=
  ∃ id ∈ b.stamp.ids, (∀ x ∈ s.cycling_belief_events.contents, id ∉ (s.cycling_belief_event_storage x.address).stamp.ids) ∧
    ∀ c ∈ s.live, id ∉ (s.concept_storage c).belief_spike.stamp.ids

/-- All other belief events are less urgent than a new one. -/
def Sys.Settled (s : Sys) : Prop := ∀ x ∈ s.cycling_belief_events.contents, x.priority < 1

/-- An event of ordinary kind: neither an implication nor a relation between values of a property. -/
structure Ordinary (n : Narsese) (t : Term) : Prop where
  noImplication : ¬ IsImplication n t
  noRelation : Narsese_copulaEquals n (t.get 0) HAS_CONTINUOUS_PROPERTY = true →
    Narsese_copulaEquals n (t.get 2) SIMILARITY = false ∧ Narsese_copulaEquals n (t.get 2) SEQUENCE = false

end ONA
