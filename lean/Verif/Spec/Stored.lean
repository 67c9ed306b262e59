import Verif.Spec.API
/-
What the memory stores, for the properties of reachable states.
-/
namespace ONA
variable [Arith]

/-- The events stored in the memory: in the cells of concepts and in the attention buffers. -/
inductive StoredEvent (s : Sys) : Event → Prop where
  | belief (c : Nat) : StoredEvent s (s.concept_storage c).belief
  | belief_spike (c : Nat) : StoredEvent s (s.concept_storage c).belief_spike
  | predicted_belief (c : Nat) : StoredEvent s (s.concept_storage c).predicted_belief
  | goal_spike (c : Nat) : StoredEvent s (s.concept_storage c).goal_spike
  | bufferedBelief (i : Nat) : StoredEvent s (s.cycling_belief_event_storage i)
  | bufferedGoal (layer i : Nat) : StoredEvent s (s.cycling_goal_event_storage layer i)

/-- The tables of links in the memory. -/
inductive StoredTable (s : Sys) : Table → Prop where
  | precondition_beliefs (c opi : Nat) : StoredTable s ((s.concept_storage c).precondition_beliefs opi)
  | implication_links (c : Nat) : StoredTable s (s.concept_storage c).implication_links

/-- The links stored in the memory. -/
def StoredLink (s : Sys) (l : Implication) : Prop := ∃ t, StoredTable s t ∧ ∃ i < t.itemsAmount, t.array i = l

/-- The truth values stored in the memory. -/
inductive StoredTruth (s : Sys) : Truth → Prop where
  | event (e : Event) : StoredEvent s e → StoredTruth s e.truth
  | link (l : Implication) : StoredLink s l → StoredTruth s l.truth

/-- The terms stored in the memory. -/
inductive StoredTerm (s : Sys) : Term → Prop where
  | concept (c : Nat) : StoredTerm s (s.concept_storage c).term
  | event (e : Event) : StoredEvent s e → StoredTerm s e.term
  | link (l : Implication) : StoredLink s l → StoredTerm s l.term

/-- The concept in cell `c` is still the one it was before, and its belief has not become less confident. -/
structure Kept (s s' : Sys) (c : Nat) : Prop where
  same : s'.idOf c = s.idOf c
  term : s'.termOf c = s.termOf c
  belief : (s.concept_storage c).belief.type ≠ .deleted → (s'.concept_storage c).belief.type ≠ .deleted ∧
    (s.concept_storage c).belief.truth.confidence ≤ (s'.concept_storage c).belief.truth.confidence

/-- A buffer holds the event: the same statement, truth value, time and evidence. -/
def Holds (q : PriorityQueue ℚ Nat) (storage : Nat → Event) (e : Event) : Prop :=
  ∃ x ∈ q.contents, SameEvent (storage x.address) e

end ONA
