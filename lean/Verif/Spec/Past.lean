import Verif.Spec.Learning
/-
What a concept remembers of an event: what has happened and what is expected are kept apart.
-/
namespace ONA

/-- An event with this time belongs to the past or the present. -/
def HasHappened (e : Event) (now : Int) : Prop := e.occurrenceTime ≠ OCCURRENCE_ETERNAL ∧ e.occurrenceTime ≤ now

/-- An event with this time belongs to the future. -/
def IsExpected (e : Event) (now : Int) : Prop := e.occurrenceTime ≠ OCCURRENCE_ETERNAL ∧ now < e.occurrenceTime

/-- The concept, as it was (`x`) and as it is (`y`), took note of the event: an event which has happened is combined with the last known
one, an expected event with the last prediction. -/
structure TakesNote [Arith] (n : Narsese) (e : Event) (now : Int) (x y : Concept) : Prop where
  past : HasHappened e now → ∃ u r, Inference_RevisionAndChoice n x.belief_spike e = .ok (u, r) ∧
    y.belief_spike = { u with creationTime := now }
  future : IsExpected e now → ∃ u r, Inference_RevisionAndChoice n x.predicted_belief e = .ok (u, r) ∧
    y.predicted_belief = { u with creationTime := now }
  notPast : ¬ HasHappened e now → y.belief_spike = x.belief_spike
  notFuture : ¬ IsExpected e now → y.predicted_belief = x.predicted_belief

/-- The same is known to have happened, and the same is expected. -/
structure SameNews (x y : Concept) : Prop where
  past : y.belief_spike = x.belief_spike
  future : y.predicted_belief = x.predicted_belief

/-- The concept of the term before the event was added: the one in memory, or one which knows nothing. -/
def Sys.Before (s : Sys) (i : Nat) (x : Concept) : Prop :=
  i ∈ s.live ∧ x = s.concept_storage i ∨ i ∉ s.live ∧ x.belief_spike = Event.zero ∧ x.predicted_belief = Event.zero

/-- The event belongs to the recent ones: it has a time, and is not the value of a property of a single thing. -/
def CountsAsRecent (n : Narsese) (e : Event) : Prop :=
  e.occurrenceTime ≠ OCCURRENCE_ETERNAL ∧
  ¬ (Narsese_copulaEquals n (e.term.get 0) HAS_CONTINUOUS_PROPERTY = true ∧ Narsese_copulaEquals n (e.term.get 1) PRODUCT = false)

/-- From `s` to `s'`, exactly one concept took note of the event, the one of its term. -/
def Sys.Notes [Arith] (n : Narsese) (e : Event) (now : Int) (s s' : Sys) : Prop :=
  ∃ i x, i ∈ s'.live ∧ s'.termOf i = e.term ∧ s.Before i x ∧ TakesNote n e now x (s'.concept_storage i) ∧
    (∀ c ∈ s.live, c ∈ s'.live ∧ s'.termOf c = s.termOf c ∧ (c ≠ i → SameNews (s.concept_storage c) (s'.concept_storage c))) ∧
    (∀ c ∈ s'.live, c ∈ s.live ∨ c = i) ∧
    (CountsAsRecent n e → s'.occurrenceTimeIndex = s.occurrenceTimeIndex.add i) ∧
    (¬ CountsAsRecent n e → s'.occurrenceTimeIndex = s.occurrenceTimeIndex)

/-- Nothing known to have happened is in the future. -/
def Sys.PastIsPast (s : Sys) (now : Int) : Prop :=
  ∀ c ∈ s.live, (s.concept_storage c).belief_spike.type ≠ .deleted → (s.concept_storage c).belief_spike.occurrenceTime ≤ now

end ONA
