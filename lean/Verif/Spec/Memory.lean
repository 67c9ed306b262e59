import Verif.Model.Memory
import Verif.Spec.PriorityQueue
/-
Vocabulary for the properties of the concept memory.
-/
namespace ONA
namespace Sys

/-- The concepts in memory: those the concept queue refers to. -/
def live (s : Sys) : List Nat := s.concepts.contents.map (·.address)

/-- The number of concepts the memory can hold. -/
def capacity (s : Sys) : Nat := s.concepts.maxElements

/-- The term of a concept. -/
def termOf (s : Sys) (c : Nat) : Term := (s.concept_storage c).term

/-- The identity of a concept. -/
def idOf (s : Sys) (c : Nat) : Int := (s.concept_storage c).id

/-- A new concept. -/
def newConcept (s : Sys) (t : Term) (now : Int) : Concept :=
  { Concept.zero with term := t, id := s.concept_id, usage := ⟨1, now⟩ }

end Sys

/-- What asking for the concept of a term does (the result and the new state). -/
inductive Conceptualized (s : Sys) (t : Term) (now : Int) : Option Nat → Sys → Prop where
  /-- The concept exists: nothing changes. -/
  | known (c : Nat) : c ∈ s.live → s.termOf c = t → Conceptualized s t now (some c) s
  /-- There is room: a fresh concept in an unused cell. -/
  | room (c : Nat) (q : PriorityQueue ℚ Nat) (ht : HashTable Nat Nat) (idx : InvertedAtomIndex) :
      (∀ d ∈ s.live, s.termOf d ≠ t) → s.live.length < s.capacity → c ∉ s.live → c < s.capacity →
      q.contents.Perm (⟨1, c⟩ :: s.concepts.contents) → q.maxElements = s.capacity →
      Conceptualized s t now (some c) { s with
        concepts := q, HTconcepts := ht, index := idx
        concept_storage := upd s.concept_storage c (s.newConcept t now), concept_id := s.concept_id + 1 }
  /-- The memory is full: a concept of lowest priority makes room. -/
  | evict (e : Item ℚ Nat) (rest : List (Item ℚ Nat)) (q : PriorityQueue ℚ Nat) (ht : HashTable Nat Nat)
      (idx : InvertedAtomIndex) :
      (∀ d ∈ s.live, s.termOf d ≠ t) → s.live.length = s.capacity → PQSpec.IsMin s.concepts.contents e →
      s.concepts.contents.Perm (e :: rest) → q.contents.Perm (⟨1, e.address⟩ :: rest) → q.maxElements = s.capacity →
      e.priority ≤ 1 →
      Conceptualized s t now (some e.address) { s with
        concepts := q, HTconcepts := ht, index := idx
        concept_storage := upd s.concept_storage e.address (s.newConcept t now), concept_id := s.concept_id + 1 }
  /-- The memory is full and every concept has priority above 1: nothing changes. -/
  | refused : (∀ d ∈ s.live, s.termOf d ≠ t) → s.live.length = s.capacity →
      (∀ x ∈ s.concepts.contents, 1 < x.priority) → Conceptualized s t now none s

end ONA
namespace ONA

/-- What happens to the concept memory. -/
inductive MemStep (n : Narsese) (s : Sys) : Sys → Prop where
  /-- asking for the concept of a term -/
  | conceptualize (t : Term) (now : Int) (r : Option Nat) (s' : Sys) :
      Memory_Conceptualize n t now s = .ok (r, s') → MemStep n s s'
  /-- any change outside the concept index that keeps terms and identities of the concepts -/
  | content (s' : Sys) : s'.concepts = s.concepts → s'.HTconcepts = s.HTconcepts → s'.index = s.index →
      s'.concept_id = s.concept_id → (∀ c, s'.termOf c = s.termOf c) → (∀ c, s'.idOf c = s.idOf c) → MemStep n s s'
  /-- new queue priorities, at most 1, and rebuilding the queue -/
  | reprioritise (g : Item ℚ Nat → ℚ) (q : PriorityQueue ℚ Nat) : (∀ x, g x ≤ 1) →
      (s.concepts.overwrite g).rebuild = .ok q → MemStep n s { s with concepts := q }

/-- The states of the concept memory that can arise from its initialisation with given sizes. -/
inductive MemHistory (n : Narsese) (sz : MemorySizes) : Sys → Prop where
  | init (s0 s : Sys) : Memory_INIT_sizes sz s0 = .ok ((), s) → MemHistory n sz s
  | step (s s' : Sys) : MemHistory n sz s → MemStep n s s' → MemHistory n sz s'

/-- A sequence of steps, as the list of the states before and after each step. -/
inductive MemSteps (n : Narsese) : List (Sys × Sys) → Sys → Sys → Prop where
  | nil (s : Sys) : MemSteps n [] s s
  | snoc {l : List (Sys × Sys)} {s s' s'' : Sys} : MemSteps n l s s' → MemStep n s' s'' → MemSteps n (l ++ [(s', s'')]) s s''

/-- The step forgets concept `c`: its term does not lead to it any more. -/
def Forgets (c : Nat) (step : Sys × Sys) : Prop :=
  Memory_FindConceptByTerm (step.1.termOf c) step.2 ≠ .ok (some c, step.2)

end ONA
