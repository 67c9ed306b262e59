import Verif.Model.Cycle
import Verif.Spec.Stamp
/-
What may be derived: the filters for statements, in terms of the positions of a term, and the effect of a derivation
on memory.
-/
namespace ONA

/-- The atom is the copula or connector with this name. -/
def Narsese.Is (n : Narsese) (a : Atom) (c : Char) : Prop := a ≠ 0 ∧ n.nameOf a = [c]

/-- The statement is an inheritance or a similarity. -/
def Term.IsStatement (n : Narsese) (t : Term) : Prop := n.Is (t.get 0) INHERITANCE ∨ n.Is (t.get 0) SIMILARITY

/-- The atom is a conjunction or disjunction. -/
def Narsese.IsJunction (n : Narsese) (a : Atom) : Prop := n.Is a CONJUNCTION ∨ n.Is a DISJUNCTION

/-- The atom is an implication or an equivalence. -/
def Narsese.IsHigherOrder (n : Narsese) (a : Atom) : Prop := n.Is a IMPLICATION ∨ n.Is a EQUIVALENCE

/-- Relations between pairs with a product on both sides, and a pair in the first component. -/
def Term.RelatesProducts (n : Narsese) (t : Term) : Prop :=
  n.Is (t.get 1) PRODUCT ∧ n.Is (t.get 3) PRODUCT ∧ n.Is (t.get 4) PRODUCT

/-- A conjunction in which the leftmost condition is an operation: `op && b`, `(op && b) && c`, ... -/
inductive StartsWithOperation (n : Narsese) : Term → Prop
  | here {t : Term} : n.Is (t.get 0) CONJUNCTION → Narsese_isOperation n (Term_ExtractSubterm t 1) = true →
      StartsWithOperation n t
  | deeper {t : Term} : n.Is (t.get 0) CONJUNCTION → StartsWithOperation n (Term_ExtractSubterm t 1) →
      StartsWithOperation n t

/-- The statement passes the filters for derived statements. Positions of a term are indices in the heap-like encoding: the
components of position `i` are at `2 * i + 1` and `2 * i + 2`. -/
structure Admissible (n : Narsese) (t : Term) : Prop where
  /-- No name occurs twice in an inheritance or similarity, except in a relation between products of products. -/
  once : t.IsStatement n → ¬ t.RelatesProducts n → ∀ i j, i < COMPOUND_TERM_SIZE_MAX → j < COMPOUND_TERM_SIZE_MAX →
    t.get i = t.get j → Narsese_IsSimpleAtom n (t.get i) = true → i = j
  /-- The sides of an implication or equivalence are different. -/
  sides : n.IsHigherOrder (t.get 0) → Term_ExtractSubterm t 1 ≠ Term_ExtractSubterm t 2
  /-- At most one implication or equivalence. -/
  flat : ∀ i j, i < COMPOUND_TERM_SIZE_MAX → j < COMPOUND_TERM_SIZE_MAX → n.IsHigherOrder (t.get i) →
    n.IsHigherOrder (t.get j) → i = j
  /-- At most two temporal implications. -/
  temporal : ∀ i j k, i < j → j < k → k < COMPOUND_TERM_SIZE_MAX → n.Is (t.get i) TEMPORAL_IMPLICATION →
    n.Is (t.get j) TEMPORAL_IMPLICATION → ¬ n.Is (t.get k) TEMPORAL_IMPLICATION
  /-- No dependent variable in an inheritance or similarity. -/
  independent : t.IsStatement n → ∀ i, i < COMPOUND_TERM_SIZE_MAX → Variable_isDependentVariable n (t.get i) = false
  /-- Conjunctions and disjunctions are nested to the left. -/
  leftNested : ∀ i, i < COMPOUND_TERM_SIZE_MAX → n.IsJunction (t.get i) → ¬ n.IsJunction (t.get (2 * i + 2))
  /-- No extensional intersection of extensional sets as subject, and no intensional intersection of intensional sets as
  predicate. -/
  sets : n.Is (t.get 0) INHERITANCE →
    ¬ (n.Is (t.get 1) EXT_INTERSECTION ∧ n.Is (t.get 3) EXT_SET ∧ n.Is (t.get 4) EXT_SET) ∧
    ¬ (n.Is (t.get 2) INT_INTERSECTION ∧ n.Is (t.get 5) INT_SET ∧ n.Is (t.get 6) INT_SET)
  /-- Independent and dependent variables occur at least twice. -/
  twice : ∀ i, i < COMPOUND_TERM_SIZE_MAX →
    Variable_isIndependentVariable n (t.get i) = true ∨ Variable_isDependentVariable n (t.get i) = true →
    ∃ j, j < COMPOUND_TERM_SIZE_MAX ∧ j ≠ i ∧ t.get j = t.get i
  /-- The condition of an implication or equivalence does not start with an operation. -/
  operation : n.IsHigherOrder (t.get 0) → ¬ StartsWithOperation n (Term_ExtractSubterm t 1)

/-- The atom is an independent or dependent variable. -/
def Narsese.IsVar (n : Narsese) (a : Atom) : Prop :=
  Variable_isIndependentVariable n a = true ∨ Variable_isDependentVariable n a = true

/-- The term has variables as well as names. -/
def Term.Mixed (n : Narsese) (t : Term) : Prop :=
  (∃ i < COMPOUND_TERM_SIZE_MAX, n.IsVar (t.get i)) ∧
    ∃ i < COMPOUND_TERM_SIZE_MAX, Narsese_IsSimpleAtom n (t.get i) = true

/-- What is required of an inheritance or similarity inside a statement with introduced variables. The test for an
extensional image in the predicate is, for the second kind of image, one of the subject, as in the code. -/
structure Term.Sound (n : Narsese) (t : Term) : Prop where
  different : Term_ExtractSubterm t 1 ≠ Term_ExtractSubterm t 2
  notBothVar : ¬ (n.IsVar (t.get 1) ∧ n.IsVar (t.get 2))
  mixed : t.Mixed n
  sides : ¬ n.Is (t.get 1) INT_IMAGE1 → ¬ n.Is (t.get 1) INT_IMAGE2 → ¬ n.Is (t.get 2) EXT_IMAGE1 →
    ¬ n.Is (t.get 1) EXT_IMAGE2 → ¬ n.Is (t.get 1) SET_ELEMT → ¬ n.Is (t.get 2) SET_ELEMT →
    ¬ (Term_ExtractSubterm t 1).Mixed n ∧ ¬ (Term_ExtractSubterm t 2).Mixed n
  subjectImage : n.Is (t.get 1) INT_IMAGE1 ∨ n.Is (t.get 1) INT_IMAGE2 →
    ¬ (Term_ExtractSubterm (Term_ExtractSubterm t 1) 1).Mixed n ∧ ¬ (Term_ExtractSubterm (Term_ExtractSubterm t 1) 2).Mixed n
  predicateImage : n.Is (t.get 2) EXT_IMAGE1 ∨ n.Is (t.get 1) EXT_IMAGE2 →
    ¬ (Term_ExtractSubterm (Term_ExtractSubterm t 2) 1).Mixed n ∧ ¬ (Term_ExtractSubterm (Term_ExtractSubterm t 2) 2).Mixed n

/-- The inheritance and similarity statements which are combined by implications, equivalences, conjunctions and
disjunctions in a term. -/
inductive ComponentOf (n : Narsese) : Term → Term → Prop
  | child {t : Term} {j : Nat} : n.IsHigherOrder (t.get 0) ∨ n.IsJunction (t.get 0) → j = 1 ∨ j = 2 →
      (Term_ExtractSubterm t j).IsStatement n → ComponentOf n t (Term_ExtractSubterm t j)
  | deeper {t u : Term} {j : Nat} : n.IsHigherOrder (t.get 0) ∨ n.IsJunction (t.get 0) → j = 1 ∨ j = 2 →
      ComponentOf n (Term_ExtractSubterm t j) u → ComponentOf n t u

/-- `t` is the result of introducing variables into a statement: it is different, its components are proper, and an
implication or equivalence has an independent variable. -/
structure Introduced (n : Narsese) (original t : Term) : Prop where
  by_introduction : ∃ extensionally, Variable_IntroduceImplicationVariables n original extensionally = .ok (true, t) ∨
    Variable_IntroduceConjunctionVariables n original extensionally = .ok (true, t)
  different : t ≠ original
  proper : ∀ u, ComponentOf n t u → u.Sound n
  independent : n.IsHigherOrder (t.get 0) → n.Is (original.get 0) TEMPORAL_IMPLICATION ∨ n.IsHigherOrder (original.get 0) →
    ∃ i < COMPOUND_TERM_SIZE_MAX, Variable_isIndependentVariable n (t.get i) = true

section
variable [Arith]

/-- The state changes by adding events to memory, as new events which are no input, at the time `now`. `P s e` holds for
each event `e` and the state `s` it is added to. -/
inductive Adds (n : Narsese) (now : Int) (P : Sys → Event → Prop) : Sys → Sys → Prop
  | refl {s : Sys} : Adds n now P s s
  | tail {s0 s s' : Sys} {e : Event} {priority : ℚ} : Adds n now P s0 s → P s e →
      Memory_AddEvent' n e now priority false false 0 s = .ok ((), s') → Adds n now P s0 s'

/-- What is added for a derivation with the conclusion `term`. -/
structure Derived (n : Narsese) (d : Derivation) (term : Term) (varIntro : Bool) (s : Sys) (e : Event) : Prop where
  event : e = d.event e.term
  admissible : Admissible n e.term
  valid : ∀ c id, d.validation = some (c, id) → (s.concept_storage c).id = id
  origin : e.term = term ∧ (varIntro = true → ¬ n.IsHigherOrder (term.get 0) ∧ ¬ n.Is (term.get 0) CONJUNCTION) ∨
    varIntro = true ∧ Introduced n term e.term

end

/-- A conclusion which may be added to memory: an admissible statement with the given stamp and occurrence time. -/
structure IsConclusion (n : Narsese) (stamp : Stamp) (occurrence : Int) (now : Int) (e : Event) : Prop where
  admissible : Admissible n e.term
  type : e.type = .belief
  stamp : e.stamp = stamp
  occurrence : e.occurrenceTime = occurrence
  creation : e.creationTime = now

/-- The two stamps have no evidence in common. -/
def Stamp.Disjoint (a b : Stamp) : Prop := ∀ x ∈ a.ids, x ∉ b.ids

/-- What inference between events leaves alone: everything but the counters and marks which control the traversal of
memory, and the usage of concepts. -/
def Sys.content (s : Sys) : Sys :=
  { s with
    conceptProcessID := 0, conceptProcessID2 := 0, conceptProcessID3 := 0, conceptPriorityThreshold := 0
    Stats_countConceptsMatchedTotal := 0, Stats_countConceptsMatchedMax := 0
    concept_storage := fun i =>
      { s.concept_storage i with processID := 0, processID2 := 0, processID3 := 0, usage := ⟨0, 0⟩ } }

section
variable [Arith]

open Classical in
/-- What the concept in cell `c` says about the time of `e`: its event projected to that time if both have a time and are
close to each other, otherwise its eternal belief. -/
noncomputable def beliefFor (s : Sys) (c : Nat) (e : Event) : Event :=
  let spike := (s.concept_storage c).belief_spike
  if e.occurrenceTime ≠ OCCURRENCE_ETERNAL ∧ spike.type ≠ .deleted ∧
      |e.occurrenceTime - spike.occurrenceTime| < EVENT_BELIEF_DISTANCE then
    { spike with
      truth := Truth_Projection spike.truth spike.occurrenceTime e.occurrenceTime, occurrenceTime := e.occurrenceTime }
  else (s.concept_storage c).belief

end
end ONA
