import Verif.Model.Announce
import Verif.Spec.System
/-
What the lines printed about added knowledge have to say.
-/
namespace ONA

/-- The line tells the content of the event. -/
structure Line.Tells (l : Line) (e : Event) : Prop where
  term : l.term = e.term
  belief : l.isBelief = true ↔ e.type = .belief
  truth : l.truth = e.truth
  stamp : l.stamp = e.stamp
  eternal : e.occurrenceTime = OCCURRENCE_ETERNAL → l.occurrenceTime = none
  time : e.occurrenceTime ≠ OCCURRENCE_ETERNAL → l.occurrenceTime = some e.occurrenceTime

/-- The line tells the content of the link. -/
structure Line.TellsLink (l : Line) (x : Implication) : Prop where
  term : l.term = x.term
  belief : l.isBelief = true
  truth : l.truth = x.truth
  stamp : l.stamp = x.stamp
  eternal : l.occurrenceTime = none

/-- The lines beginning with this word. -/
def said (k : LineKind) (l : List Line) : List Line := l.filter fun x => decide (x.kind = k)

/-- Derivations of this priority are shown. -/
def PrintFlags.Shows (p : PrintFlags) (priority : ℚ) : Prop :=
  p.PRINT_DERIVATIONS = true ∧ p.PRINT_EVENTS_PRIORITY_THRESHOLD < priority

/-- The event is in the buffer. -/
def Sys.Buffered (s : Sys) (e : Event) : Prop :=
  ∃ x ∈ s.cycling_belief_events.contents, s.cycling_belief_event_storage x.address = e

/-- The goal is in the buffer of the layer. -/
def Sys.BufferedGoal (s : Sys) (layer : Nat) (e : Event) : Prop :=
  ∃ x ∈ (s.cycling_goal_events layer).contents, s.cycling_goal_event_storage layer x.address = e

/-- A link of the concept. -/
def Concept.HasLink (c : Concept) (x : Implication) : Prop :=
  x ∈ c.implication_links.entries ∨ ∃ opi, x ∈ (c.precondition_beliefs opi).entries

/-- The layer after the given one, or the last one. -/
def nextLayer (layer : Nat) : Nat := min (CYCLING_GOAL_EVENTS_LAYERS - 1) (layer + 1)

/-- The belief of a concept of the term. -/
def Sys.Believes (s : Sys) (t : Term) (l : Line) : Prop := ∃ c ∈ s.live, s.termOf c = t ∧ l.Tells (s.concept_storage c).belief

/-- A link of this term is at a concept. -/
def Sys.Links (s : Sys) (t : Term) (x : Implication) : Prop := x.term = t ∧ ∃ c, (s.concept_storage c).HasLink x

end ONA
