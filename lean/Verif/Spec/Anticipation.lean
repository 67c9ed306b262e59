import Verif.Spec.Decision
import Verif.Spec.Subgoals
/-
Anticipation (C79): what the links lead to expect from an observation or the execution of an operation, and what is done with it.
-/
namespace ONA
variable [Arith]

/-- The state with another content of cell `c`. -/
abbrev Sys.withConcept (s : Sys) (c : Nat) (x : Concept) : Sys := { s with concept_storage := upd s.concept_storage c x }

/-- Given what was observed, the operation of the link is `opTerm`; number 0 stands for no operation. -/
def ByOperation (n : Narsese) (op : Nat) (opTerm : Term) (link : Implication) (observed : Event) : Prop :=
  op = 0 ∨ ∃ subs subs' t,
    Variable_Unify n (Narsese_GetPreconditionWithoutOp n termDepth (Term_ExtractSubterm link.term 1)) observed.term = .ok subs ∧
    subs.success = true ∧
    Variable_ApplySubstitute n (Narsese_getOperationTerm n termDepth (Term_ExtractSubterm link.term 1)) subs = .ok (t, true) ∧
    Variable_Unify n t opTerm = .ok subs' ∧ subs'.success = true

/-- The execution of an operation now, as an event. -/
def performed (now : Int) : Event := { Event.zero with type := .belief, truth := ⟨1, rnd (9 / 10)⟩, occurrenceTime := now }

/-- After the event observed at the source concept `p` of the link, `r` is expected to follow. -/
structure Expects (n : Narsese) (s : Sys) (op : Nat) (opTerm : Term) (now : Int) (link : Implication) (p : Nat) (r : Event) : Prop where
  source : link.sourceConcept = some p
  observed : (s.concept_storage p).belief_spike.type ≠ .deleted
  operation : ByOperation n op opTerm link (s.concept_storage p).belief_spike
  /-- by deduction (C58) from the event, together with the operation if there is one -/
  deduced : ∃ both, Inference_BeliefIntersection (s.concept_storage p).belief_spike (performed now) = .ok (some both) ∧
    Inference_BeliefDeduction n (if op = 0 then (s.concept_storage p).belief_spike else both) link = .ok r
  /-- it is expected enough, or known not to happen -/
  strong : Narsese_copulaEquals n (link.term.get 0) IMPLICATION = true ∨ s.ANTICIPATION_THRESHOLD < Truth_Expectation r.truth ∨
    r.truth.confidence < SUBSUMPTION_CONFIDENCE_THRESHOLD ∧ r.truth.frequency = 0

/-- The evidence for the link if what it predicts does not happen. -/
def Disappointment (s : Sys) (observed : Event) (link : Implication) (v : Truth) : Prop :=
  ∃ induced, Truth_Induction ⟨0, s.ANTICIPATION_CONFIDENCE⟩
      (Truth_Projection observed.truth 0 (cround link.occurrenceTimeOffset)) = .ok induced ∧ Truth_Eternalize induced = .ok v

/-- In the table for operation `op` of the concept in cell `c`, and nowhere else, the evidence `v` is taken into account for the
link; no other link changes. -/
def Weakens (op c : Nat) (link : Implication) (v : Truth) (s s' : Sys) : Prop :=
  ∃ t : Table, s' = s.withConcept c { s.concept_storage c with precondition_beliefs := upd (s.concept_storage c).precondition_beliefs op t } ∧
    (∀ old ∈ s.linksFor c op, old.term = link.term → ∃ l : Implication, l.term = link.term ∧
      Truth_Revision old.truth v = .ok l.truth ∧ l.sourceConcept = link.sourceConcept ∧ l.sourceConceptId = link.sourceConceptId ∧
      t.entries.Perm (l :: (s.linksFor c op).filter fun x => decide (x.term ≠ link.term))) ∧
    ((∀ x ∈ s.linksFor c op, x.term ≠ link.term) → ∀ l ∈ t.entries, l ∈ s.linksFor c op ∨ l.term = link.term ∧ l.truth = v)

/-- The expected event `e` is noted in the concept in cell `c`, unless the link and the observed event, in cell `p`, are based on
the same evidence. What a temporal link predicts does not count as observed. -/
inductive Noted (n : Narsese) (now : Int) (link : Implication) (p c : Nat) (e : Event) (s : Sys) : Sys → Prop where
  | dependent : Stamp_checkOverlap (s.concept_storage p).belief_spike.stamp link.stamp = true → Noted n now link p c e s s
  | predicted (b : Event) (w : Bool) : Stamp_checkOverlap (s.concept_storage p).belief_spike.stamp link.stamp = false →
      Narsese_copulaEquals n (link.term.get 0) TEMPORAL_IMPLICATION = true →
      Inference_RevisionAndChoice n (s.concept_storage c).predicted_belief e = .ok (b, w) →
      Noted n now link p c e s (s.withConcept c { s.concept_storage c with usage := Usage_use (s.concept_storage c).usage now false, predicted_belief := b })
  | known : Stamp_checkOverlap (s.concept_storage p).belief_spike.stamp link.stamp = false →
      Narsese_copulaEquals n (link.term.get 0) TEMPORAL_IMPLICATION = false →
      Stamp_Equal (s.concept_storage c).belief_spike.stamp e.stamp = true →
      Noted n now link p c e s (s.withConcept c { s.concept_storage c with usage := Usage_use (s.concept_storage c).usage now false })
  | inferred (b : Event) (w : Bool) : Stamp_checkOverlap (s.concept_storage p).belief_spike.stamp link.stamp = false →
      Narsese_copulaEquals n (link.term.get 0) TEMPORAL_IMPLICATION = false →
      Stamp_Equal (s.concept_storage c).belief_spike.stamp e.stamp = false →
      Inference_RevisionAndChoice n (s.concept_storage c).belief_spike e = .ok (b, w) →
      Noted n now link p c e s (s.withConcept c { s.concept_storage c with usage := Usage_use (s.concept_storage c).usage now false, belief_spike := b })

/-- The expected event `r`, with the values of the variables of its condition as observed, is noted in its concept. -/
inductive Foresees (n : Narsese) (now : Int) (link : Implication) (p : Nat) (r : Event) (s : Sys) : Sys → Prop where
  | different (subs : Substitution) : Variable_Unify n (s.termOf p) (s.concept_storage p).belief_spike.term = .ok subs →
      subs.success = false → Foresees n now link p r s s
  | large (subs : Substitution) (t : Term) : Variable_Unify n (s.termOf p) (s.concept_storage p).belief_spike.term = .ok subs →
      subs.success = true → Variable_ApplySubstitute n r.term subs = .ok (t, false) → Foresees n now link p r s s
  | refused (subs : Substitution) (t : Term) (s' : Sys) :
      Variable_Unify n (s.termOf p) (s.concept_storage p).belief_spike.term = .ok subs →
      subs.success = true → Variable_ApplySubstitute n r.term subs = .ok (t, true) →
      Memory_Conceptualize n t now s = .ok (none, s') → Foresees n now link p r s s'
  | noted (subs : Substitution) (t : Term) (c : Nat) (s1 s' : Sys) :
      Variable_Unify n (s.termOf p) (s.concept_storage p).belief_spike.term = .ok subs →
      subs.success = true → Variable_ApplySubstitute n r.term subs = .ok (t, true) →
      Memory_Conceptualize n t now s = .ok (some c, s1) → Noted n now link p c { r with term := t } s1 s' → Foresees n now link p r s s'

/-- What is done with a link of the concept in cell `c`: nothing if it does not make expect anything. Otherwise it is assumed,
if it is a temporal one, that it fails; if it does not, this is compensated when the event is observed. -/
inductive Handled (n : Narsese) (op : Nat) (opTerm : Term) (now : Int) (c : Nat) (link : Implication) (s : Sys) : Sys → Prop where
  | nothing : (∀ p r, ¬ Expects n s op opTerm now link p r) → Handled n op opTerm now c link s s
  | temporal (p : Nat) (r : Event) (v : Truth) (s1 s' : Sys) : Expects n s op opTerm now link p r →
      Narsese_copulaEquals n (link.term.get 0) TEMPORAL_IMPLICATION = true →
      Disappointment s (s.concept_storage p).belief_spike link v → Weakens op c link v s s1 →
      Foresees n now link p r s1 s' → Handled n op opTerm now c link s s'
  | timeless (p : Nat) (r : Event) (s' : Sys) : Expects n s op opTerm now link p r →
      Narsese_copulaEquals n (link.term.get 0) TEMPORAL_IMPLICATION = false →
      Foresees n now link p r s s' → Handled n op opTerm now c link s s'

/-- One after the other. -/
inductive InTurn {α : Type} (each : α → Sys → Sys → Prop) : List α → Sys → Sys → Prop where
  | nil (s : Sys) : InTurn each [] s s
  | cons (a : α) (l : List α) (s s1 s' : Sys) : each a s s1 → InTurn each l s1 s' → InTurn each (a :: l) s s'

open Classical in
/-- The links of the table whose source was forgotten are removed. -/
def CleanedUp (s : Sys) (t t' : Table) : Prop := t'.entries = t.entries.filter fun link => s.LinkValid link

/-- A concept is visited: of the links for the operation, or of the links `==>` in the declarative case, those which are still
valid are used in turn. -/
inductive Visited (n : Narsese) (op : Nat) (opTerm : Term) (now : Int) (c : Nat) (s s' : Sys) : Bool → Prop where
  | temporal (t : Table) : CleanedUp s ((s.concept_storage c).precondition_beliefs op) t →
      InTurn (Handled n op opTerm now c) t.entries (s.withConcept c { s.concept_storage c with precondition_beliefs := upd (s.concept_storage c).precondition_beliefs op t }) s' →
      Visited n op opTerm now c s s' false
  | declarative (t : Table) : op = 0 → CleanedUp s (s.concept_storage c).implication_links t →
      InTurn (Handled n op opTerm now c) t.entries (s.withConcept c { s.concept_storage c with implication_links := t }) s' →
      Visited n op opTerm now c s s' true
  | none : op ≠ 0 → s' = s → Visited n op opTerm now c s s' true

/-- From position `j` on, the concepts are visited in the order of the memory. -/
inductive Anticipated (n : Narsese) (op : Nat) (opTerm : Term) (declarative : Bool) (now : Int) : Nat → Sys → Sys → Prop where
  | done (j : Nat) (s : Sys) : s.concepts.itemsAmount ≤ j → Anticipated n op opTerm declarative now j s s
  | next (j : Nat) (s s1 s' : Sys) : j < s.concepts.itemsAmount → (s.concepts.items j).address ∈ s.live →
      Visited n op opTerm now (s.concepts.items j).address s s1 declarative →
      Anticipated n op opTerm declarative now (j + 1) s1 s' → Anticipated n op opTerm declarative now j s s'

/-- What anticipation does to the knowledge of the system: of the concepts which are in memory, every link was known before, and
is not considered more likely than before; what is believed, and what is wanted, is the same. -/
structure NoStronger (s s' : Sys) : Prop where
  live : ∀ c ∈ s.live, c ∈ s'.live
  term : ∀ c ∈ s.live, s'.termOf c = s.termOf c
  links : ∀ c ∈ s.live, ∀ op, ∀ l ∈ s'.linksFor c op, ∃ l0 ∈ s.linksFor c op, l.term = l0.term ∧ l.truth.frequency ≤ l0.truth.frequency
  implications : ∀ c ∈ s.live, (s'.concept_storage c).implication_links.entries.Sublist (s.concept_storage c).implication_links.entries
  belief : ∀ c ∈ s.live, (s'.concept_storage c).belief = (s.concept_storage c).belief
  goal : ∀ c ∈ s.live, (s'.concept_storage c).goal_spike = (s.concept_storage c).goal_spike
  /-- new concepts are empty -/
  new : ∀ c ∈ s'.live, c ∉ s.live → (∀ op, s'.linksFor c op = []) ∧ (s'.concept_storage c).implication_links.entries = [] ∧
    (s'.concept_storage c).belief.type = .deleted ∧ (s'.concept_storage c).goal_spike.type = .deleted

end ONA
