import Verif.Spec.System
import Verif.Spec.InvertedAtomIndex
import Verif.Proofs.Reports
import Verif.Proofs.Extends
/-
What the reports of the shell have to say about a state.
-/
namespace ONA
variable [Arith]

/-- `k` is the largest number of entries which belong into the same bucket of the table. -/
def LargestBucket {P K V : Type} (ops : KeyOps P K) (t : HashTable P V) (l : List (P × V)) (k : Nat) : Prop :=
  (∀ b < t.buckets, HashTable.inBucket ops t l b ≤ k) ∧ ∃ b < t.buckets, HashTable.inBucket ops t l b = k

/-- The statistics of a state. -/
structure StatsOf (n : Narsese) (s : Sys) (x : Stats) : Prop where
  time : x.currentTime = s.currentTime
  matchedTotal : x.conceptsMatchedTotal = s.Stats_countConceptsMatchedTotal
  matchedMax : x.conceptsMatchedMax = s.Stats_countConceptsMatchedMax
  matchedAverage : x.conceptsMatchedAverage = s.Stats_countConceptsMatchedTotal.tdiv s.currentTime
  concepts : x.totalConcepts = s.live.length
  beliefs : x.beliefEvents = s.cycling_belief_events.contents.length
  goals : x.goalEvents = ((List.range CYCLING_GOAL_EVENTS_LAYERS).map fun layer => (s.cycling_goal_events layer).contents.length).sum
  conceptChain : LargestBucket s.termOps s.HTconcepts (s.live.map fun c => (c, c)) x.maximumConceptChain
  atomChain : ∃ ns, n.Rep ns ∧ LargestBucket n.ops n.HTatoms (atomEntries ns.length) x.maximumAtomChain
  /-- The averages over the places of a queue, full or not. The one of the goals is the sum of all layers over the places of one
  layer. -/
  averagePriority : s.concepts.maxElements ≤ 2 ^ 53 → InUnit x.averageConceptPriority
  averageUsefulness : s.concepts.maxElements ≤ 2 ^ 53 → x.averageConceptUsefulness ≤ 1
  averageBelief : s.cycling_belief_events.maxElements ≤ 2 ^ 53 → InUnit x.averageBeliefEventPriority

/-- What is printed about a concept, except its links. -/
structure ConceptLineOf (s : Sys) (item : Item ℚ Nat) (x : ConceptLine) : Prop where
  term : x.term = s.termOf item.address
  priority : x.priority = (s.concept_storage item.address).priority
  usefulness : x.usefulness = item.priority
  useCount : x.useCount = (s.concept_storage item.address).usage.useCount
  lastUsed : x.lastUsed = (s.concept_storage item.address).usage.lastUsed
  truth : x.truth = (s.concept_storage item.address).belief.truth
  /-- the parts of the term, and their parts -/
  termlinks : x.termlinks = [[1], [2], [1, 1], [1, 2], [2, 1], [2, 2]].map fun path =>
    path.foldl Term_ExtractSubterm (s.termOf item.address)
  /-- the belief, if there is one -/
  belief : ∀ e, x.belief = some e ↔
    (s.concept_storage item.address).belief.type ≠ .deleted ∧ e = (s.concept_storage item.address).belief
  /-- the links of the operations but the last, and of no operation -/
  links : ∀ l, l ∈ x.links ↔ ∃ opi < OPERATIONS_MAX, l ∈ ((s.concept_storage item.address).precondition_beliefs opi).entries

/-- What is printed about an event in a buffer. -/
def EventLineOf (storage : Nat → Event) (item : Item ℚ Nat) (x : EventLine) : Prop :=
  x.term = (storage item.address).term ∧ x.priority = item.priority ∧ x.time = (storage item.address).occurrenceTime ∧
    x.truth = (storage item.address).truth

end ONA
