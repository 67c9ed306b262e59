import Verif.Spec.Memory
import Verif.Spec.PriorityQueue
import Verif.Spec.Stamp
/-
Which events get attention: events which are not yet known or waiting, if there is room or something of no higher priority to replace.
-/
namespace ONA

/-- The evidence of `a` is that of `b`. -/
def SameEvidence (a b : Event) : Prop := (∀ id ∈ a.stamp.ids, id ∈ b.stamp.ids) ∧ b.stamp.ids.length ≤ a.stamp.ids.length

/-- Nothing about `a` differs from `b`: same truth, time, statement and evidence. -/
def Alike (a b : Event) : Prop :=
  a.truth = b.truth ∧ a.occurrenceTime = b.occurrenceTime ∧ a.term = b.term ∧ SameEvidence a b

/-- The event says nothing new about what `b` already says about the same time with the same evidence. -/
def AddsNothing (a b : Event) : Prop :=
  a.truth.confidence ≤ b.truth.confidence ∧ a.occurrenceTime = b.occurrenceTime ∧ a.term = b.term ∧ SameEvidence a b

/-- The concept of the statement remembers the event already. -/
def Sys.AlreadyKnown (s : Sys) (e : Event) : Prop :=
  ∃ c ∈ s.live, s.termOf c = e.term ∧
    ((e.type = .belief ∧ e.occurrenceTime = OCCURRENCE_ETERNAL ∧
        (s.concept_storage c).belief.type ≠ .deleted ∧ Alike e (s.concept_storage c).belief) ∨
     (e.type = .belief ∧ e.occurrenceTime ≠ OCCURRENCE_ETERNAL ∧
        (s.concept_storage c).belief_spike.type ≠ .deleted ∧ AddsNothing e (s.concept_storage c).belief_spike) ∨
     (e.type = .goal ∧ (s.concept_storage c).goal_spike.type ≠ .deleted ∧ Alike (s.concept_storage c).goal_spike e))

/-- The events waiting in a buffer, with their priorities. -/
def waitingIn (q : PriorityQueue ℚ Nat) (st : Nat → Event) : List (ℚ × Event) := q.contents.map fun x => (x.priority, st x.address)

/-- The event is waiting for attention already. -/
def Sys.AlreadyWaiting (s : Sys) (e : Event) : Prop :=
  (e.type = .belief ∧ ∃ x ∈ waitingIn s.cycling_belief_events s.cycling_belief_event_storage, Alike e x.2) ∨
  (e.type = .goal ∧ ∃ layer < CYCLING_GOAL_EVENTS_LAYERS,
    ∃ x ∈ waitingIn (s.cycling_goal_events layer) (s.cycling_goal_event_storage layer), Alike e x.2)

/-- The statement is an eternal belief, and is believed with more confidence already. -/
def Sys.Outdone (s : Sys) (e : Event) : Prop :=
  e.type = .belief ∧ e.occurrenceTime = OCCURRENCE_ETERNAL ∧
  ∃ c ∈ s.live, s.termOf c = e.term ∧ (s.concept_storage c).belief.type ≠ .deleted ∧
    e.truth.confidence < (s.concept_storage c).belief.truth.confidence

/-- There is no reason to attend to the event. -/
def Sys.Ignores (s : Sys) (e : Event) : Prop := s.AlreadyWaiting e ∨ s.AlreadyKnown e ∨ s.Outdone e

/-- The event is offered to a buffer with `room` places: what waits before and after, and whether it got in. -/
inductive Offered (room : Nat) (p : ℚ) (e : Event) (before after : List (ℚ × Event)) : Bool → Prop where
  | added : before.length < room → after.Perm ((p, e) :: before) → Offered room p e before after true
  | refused : before.length = room → (∀ x ∈ before, p < x.1) → after.Perm before → Offered room p e before after false
  | replaced (lost : ℚ × Event) (rest : List (ℚ × Event)) : before.length = room → before.Perm (lost :: rest) →
      (∀ x ∈ before, lost.1 ≤ x.1) → lost.1 ≤ p → after.Perm ((p, e) :: rest) → Offered room p e before after true

/-- Where a goal goes: one layer deeper than the goal it comes from. -/
def goalLayer (layer : Nat) : Nat := min (CYCLING_GOAL_EVENTS_LAYERS - 1) (layer + 1)

/-- From `s` to `s'` the event was offered for attention: the buffer of beliefs or of a layer of goals, and nothing else. -/
def Sys.Offers (s : Sys) (e : Event) (p : ℚ) (layer : Nat) (b : Bool) (s' : Sys) : Prop :=
  (e.type = .belief → ∃ q st, s' = { s with cycling_belief_events := q, cycling_belief_event_storage := st } ∧
    Offered s.cycling_belief_events.maxElements p e (waitingIn s.cycling_belief_events s.cycling_belief_event_storage) (waitingIn q st) b) ∧
  (e.type = .goal → ∃ q st, s' =
      { s with cycling_goal_events := upd s.cycling_goal_events (goalLayer layer) q, cycling_goal_event_storage := upd s.cycling_goal_event_storage (goalLayer layer) st } ∧
    Offered (s.cycling_goal_events (goalLayer layer)).maxElements p e
      (waitingIn (s.cycling_goal_events (goalLayer layer)) (s.cycling_goal_event_storage (goalLayer layer))) (waitingIn q st) b)

end ONA
