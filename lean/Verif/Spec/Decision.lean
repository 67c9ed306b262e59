import Verif.Spec.System
import Verif.Spec.Table
import Mathlib.Logic.Relation
/-
What a candidate for a decision is, independently of the search for the best one.
-/
namespace ONA
variable [Arith]

/-- The links for operation `opi` which are stored at a concept. -/
def Sys.linksFor (s : Sys) (concept opi : Nat) : List Implication := ((s.concept_storage concept).precondition_beliefs opi).entries

/-- The first `opi` places of the operation registry are in use. -/
def Sys.Registered (s : Sys) (opi : Nat) : Prop :=
  1 ≤ opi ∧ opi ≤ OPERATIONS_MAX ∧ ∀ j, j < opi → (s.operations j).term.get 0 ≠ 0

/-- The knowledge that the operation does not have this specific effect: the concept of the effect has a link about just
this case, with considerable confidence and low frequency. -/
def Inhibited (s : Sys) (opi : Nat) (specific : Term) : Prop :=
  ∃ c ∈ s.live, s.termOf c = Term_ExtractSubterm specific 2 ∧ ∃ r ∈ s.linksFor c opi,
    r.term = specific ∧ r.truth.confidence > SUBSUMPTION_CONFIDENCE_THRESHOLD ∧
      r.truth.frequency < SUBSUMPTION_FREQUENCY_THRESHOLD

/-- The fact with concept `fact` is closer to the precondition of another link of the goal's concept. -/
def CloserLink (n : Narsese) (s : Sys) (goalconcept : Nat) (fact : Concept) (confidence : ℚ) : Prop :=
  ∃ opk, s.Registered opk ∧ ∃ other ∈ s.linksFor goalconcept opk, ∃ subs,
    s.unifyWithAnalogy n fact.belief_spike.truth
      (Narsese_GetPreconditionWithoutOp n termDepth (Term_ExtractSubterm other.term 1)) fact.term = .ok subs ∧
    subs.success = true ∧ confidence < subs.truth.confidence

/-- `d` is what results from using `link`, stored in the concept `goalconcept` for operation `opi`, to pursue `goal` with a
fact of the memory as the precondition. -/
def Considered (n : Narsese) (s : Sys) (goalconcept : Nat) (goal : Event) (now : Int) (opi : Nat) (link : Implication)
    (d : Decision) : Prop :=
  ∃ (subs subs2 : Substitution) (general specific : Term) (cell : Nat),
    -- the goal is an instance of the concept, the link is instantiated accordingly
    Variable_Unify n (s.termOf goalconcept) goal.term = .ok subs ∧ subs.success = true ∧
    Variable_ApplySubstitute n link.term subs = .ok (general, true) ∧
    -- the fact: a concept without variables, with a recent event, matching the precondition
    cell ∈ s.live ∧ Variable_hasVariable n (s.termOf cell) true true true = false ∧
    (s.concept_storage cell).belief_spike.type ≠ .deleted ∧
    s.unifyWithAnalogy n (s.concept_storage cell).belief_spike.truth
      (Narsese_GetPreconditionWithoutOp n termDepth (Term_ExtractSubterm general 1)) (s.termOf cell) = .ok subs2 ∧
    subs2.success = true ∧
    -- which matches exactly, or is not closer to the precondition of another link
    (subs2.truth.confidence = (s.concept_storage cell).belief_spike.truth.confidence ∨
      ¬ CloserLink n s goalconcept (s.concept_storage cell) subs2.truth.confidence) ∧
    Variable_ApplySubstitute n general subs2 = .ok (specific, true) ∧
    (Variable_hasVariable n (s.termOf goalconcept) true true true = true →
      Variable_hasVariable n goal.term true true true = true → Variable_hasVariable n specific true false false = false) ∧
    -- a link with variables is not contradicted by knowledge about the specific case
    (Variable_hasVariable n link.term true true true = true → ¬ Inhibited s opi specific) ∧
    -- the desire, the operation and its arguments
    Decision_ConsiderImplication n s now goal
      { link with term := specific, sourceConcept := some cell, sourceConceptId := (s.concept_storage cell).id }
      subs2.truth = .ok d

/-- What the link, stored at the concept in cell `c`, says about the operation of the decision: there is a recent goal, and the
precondition has recently been observed. -/
def ConcernOf (n : Narsese) (s : Sys) (d : Decision) (c : Nat) (link : Implication) (e : Event) : Prop :=
  (s.concept_storage c).goal_spike.type ≠ .deleted ∧
  s.currentTime - (s.concept_storage c).goal_spike.occurrenceTime < EVENT_BELIEF_DISTANCE ∧
  ∃ p ctx, link.sourceConcept = some p ∧ (s.concept_storage p).belief_spike.type ≠ .deleted ∧
    s.currentTime - (s.concept_storage p).belief_spike.occurrenceTime < EVENT_BELIEF_DISTANCE ∧
    Narsese_OperationSequenceAppendLeftNested n termDepth Term.zero (Term_ExtractSubterm link.term 1) = (true, d.operationTerm) ∧
    -- the desire for the operation
    Inference_GoalDeduction n (s.concept_storage c).goal_spike link s.currentTime = .ok ctx ∧
    e = Inference_GoalSequenceDeduction ctx (s.concept_storage p).belief_spike s.currentTime

/-- What some present goal says about the operation of the decision. -/
def Concern (n : Narsese) (s : Sys) (d : Decision) (e : Event) : Prop :=
  ∃ c ∈ s.live, ∃ link ∈ s.linksFor c d.operationID, ConcernOf n s d c link e

/-- The events are taken together, one after the other, by revision or choice. -/
def Accumulates (n : Narsese) (l : List Event) (a r : Event) : Prop :=
  l.foldlM (fun a e => Prod.fst <$> Inference_RevisionAndChoice n a e) a = .ok r

/-- What the subject of a link says about the operation: there is none, or it comes last in the sequence, and is an operation
without arguments, or one with arguments which is the system's own. -/
inductive Names (n : Narsese) (s : Sys) (subject : Term) : Nat → Term → Prop where
  | none : Names n s subject 0 Term.zero
  | plain : Narsese_copulaEquals n (subject.get 0) SEQUENCE = true → Narsese_isOperator n ((Term_ExtractSubterm subject 2).get 0) = true →
      Names n s subject (s.operationID n (Term_ExtractSubterm subject 2)) Term.zero
  | arguments : Narsese_copulaEquals n (subject.get 0) SEQUENCE = true → Narsese_isOperation n (Term_ExtractSubterm subject 2) = true →
      Narsese_isOperator n ((Term_ExtractSubterm subject 2).get 0) = false →
      (Term_ExtractSubterm (Term_ExtractSubterm subject 2) 1).get 3 = n.SELF →
      Names n s subject (s.operationID n (Term_ExtractSubterm subject 2)) (Term_ExtractSubterm (Term_ExtractSubterm subject 2) 1)

/-- `s'` is `s` without some of the links of the concept `c` whose precondition was forgotten. -/
def Pruned (c : Nat) (s s' : Sys) : Prop :=
  ∃ tables : Nat → Table,
    s' = { s with concept_storage := upd s.concept_storage c { s.concept_storage c with precondition_beliefs := tables } } ∧
    ∀ opi, (tables opi).entries.Sublist (s.linksFor c opi) ∧
      ∀ link ∈ s.linksFor c opi, s.implicationValid link = .ok true → link ∈ (tables opi).entries

/-- No candidate given by a link of the goal's concept satisfies `bad`; a link is tried after some links with forgotten
preconditions have been removed. -/
def NoCandidate (n : Narsese) (s : Sys) (goalconcept : Nat) (goal : Event) (now : Int) (bad : Decision → Prop) : Prop :=
  ∀ opi, s.Registered opi → ∀ link ∈ s.linksFor goalconcept opi, s.implicationValid link = .ok true →
    ∃ s1, Pruned goalconcept s s1 ∧ ∀ d, Considered n s1 goalconcept goal now opi link d → ¬ bad d

/-- `d` is the decision for one of the candidates. -/
def IsCandidate (n : Narsese) (s : Sys) (goalconcept : Nat) (goal : Event) (now : Int) (d : Decision) : Prop :=
  ∃ opi, s.Registered opi ∧ ∃ link ∈ s.linksFor goalconcept opi, s.implicationValid link = .ok true ∧
    ∃ s1, Pruned goalconcept s s1 ∧ ∃ d', Considered n s1 goalconcept goal now opi link d' ∧
      d.desire = d'.desire ∧ d.operationID = d'.operationID ∧ d.arguments = d'.arguments ∧ d.reason = d'.reason

/-- A state reached from `s0` by elementary changes of the memory. -/
def During (n : Narsese) (s0 s : Sys) : Prop := Relation.ReflTransGen (Step n) s0 s

/-- `d` is the best candidate for the goal at one of the concepts, at some time after `s0`, and reaches the threshold. -/
def BestFor (n : Narsese) (s0 : Sys) (goal : Event) (now : Int) (d : Decision) : Prop :=
  ∃ s gc, During n s0 s ∧ Good n s ∧ s.DECISION_THRESHOLD ≤ d.desire ∧ IsCandidate n s gc goal now d ∧
    NoCandidate n s gc goal now fun d' => d.desire < d'.desire

/-- The goal is one of the selected ones, up to its variables and time stamps of the processing. -/
def InstanceOf (goal selected : Event) : Prop :=
  goal.type = selected.type ∧ goal.truth = selected.truth ∧ goal.stamp = selected.stamp ∧
    goal.occurrenceTime = selected.occurrenceTime

/-- The outcome of comparing the decisions for several goals, each of which is announced by a line. -/
structure RoundResult (n : Narsese) (s0 : Sys) (goals : List Event) (now : Int) (lines : List Output) (best : Decision) : Prop where
  /-- every line announces a decision reaching the threshold -/
  announced : ∀ o ∈ lines, ∃ d imp, o = .decision d imp ∧ s0.DECISION_THRESHOLD ≤ d
  /-- the chosen decision is announced, is the best candidate for one of the goals, and no announced one is better -/
  chosen : best.execute = true → (∃ imp, .decision best.desire imp ∈ lines) ∧
    (∀ d imp, .decision d imp ∈ lines → d ≤ best.desire) ∧
    ∃ goal, (∃ g ∈ goals, InstanceOf goal g) ∧ BestFor n s0 goal now best
  /-- nothing is chosen only if nothing is announced -/
  otherwise : best.execute = false → best = Decision.zero ∧ lines = []

end ONA
