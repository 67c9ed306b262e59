import Verif.Spec.Rules
import Verif.Spec.Table
import Verif.Spec.PriorityQueue
/-
What it means that a goal is derived from another one (C75).
-/
namespace ONA
variable [Arith]

/-- The goals waiting to be processed. -/
def Sys.goalBuffers (s : Sys) : (Nat → PriorityQueue ℚ Nat) × (Nat → Nat → Event) :=
  (s.cycling_goal_events, s.cycling_goal_event_storage)

/-- The link is in one of the tables of the concept in cell `c`. -/
def Sys.HasLink (s : Sys) (c : Nat) (imp : Implication) : Prop :=
  (∃ opi ≤ OPERATIONS_MAX, ∃ j < ((s.concept_storage c).precondition_beliefs opi).itemsAmount,
    imp = ((s.concept_storage c).precondition_beliefs opi).array j) ∨
  ∃ j < (s.concept_storage c).implication_links.itemsAmount, imp = (s.concept_storage c).implication_links.array j

/-- The concept from which the link was derived is still in memory. -/
def Sys.LinkValid (s : Sys) (imp : Implication) : Prop :=
  ∃ k, imp.sourceConcept = some k ∧ imp.sourceConceptId = (s.concept_storage k).id

/-- `e` is the subgoal of `goal` by a link: the goal matches a concept, where it competes with the goal the concept has
already (C25); the consequence of a valid link of the concept matches the goal which wins; `e` is the condition of the
link, deduced from both (C58). -/
def SubgoalByLink (n : Narsese) (s : Sys) (now : Int) (goal e : Event) : Prop :=
  ∃ c imp before wins t,
    (∃ subs, Variable_Unify n (s.concept_storage c).term goal.term = .ok subs ∧ subs.success = true) ∧
    Inference_RevisionAndChoice n before goal = .ok ((s.concept_storage c).goal_spike, wins) ∧
    s.HasLink c imp ∧ s.LinkValid imp ∧
    Specialized n (Term_ExtractSubterm imp.term 2) (s.concept_storage c).goal_spike.term imp.term t ∧
    ∃ d, Inference_GoalDeduction n (s.concept_storage c).goal_spike { imp with term := t } now = .ok d ∧
      e = Inference_EventUpdate d now

/-- The components of a sequence, the last one first. -/
inductive SequenceComponents (n : Narsese) : Term → List Term → Prop
  | one {t : Term} : ¬ n.Is (t.get 0) SEQUENCE → SequenceComponents n t [t]
  | more {t : Term} {l : List Term} : n.Is (t.get 0) SEQUENCE → SequenceComponents n (Term_ExtractSubterm t 1) l →
      SequenceComponents n t (Term_ExtractSubterm t 2 :: l)

/-- The event in the concept in cell `c` fulfils a component of a sequence: it is not before `last`, it is expected to hold,
and `subs` makes the component the same as its term. -/
structure Fulfils (n : Narsese) (s : Sys) (component : Term) (last : Int) (c : Nat) (subs : Substitution) : Prop where
  ground : Variable_hasVariable n (s.concept_storage c).term true true true = false
  unify : Variable_Unify n component (s.concept_storage c).term = .ok subs
  success : subs.success = true
  event : (s.concept_storage c).belief_spike.type ≠ .deleted
  order : last ≤ (s.concept_storage c).belief_spike.occurrenceTime
  expected : s.CONDITION_THRESHOLD ≤ Truth_Expectation (Truth_Projection (s.concept_storage c).belief_spike.truth
    (s.concept_storage c).belief_spike.occurrenceTime s.currentTime)

/-- From a goal `g` to achieve the components `l` (the last one first) after the time `last`, what is left when the first
ones are fulfilled: a goal for the next of the components which are left. -/
inductive Remaining (n : Narsese) (s : Sys) : List Term → Int → Event → List Term → Event → Prop
  | refl {l : List Term} {last : Int} {g : Event} : Remaining n s l last g l g
  | next {l l' rest : List Term} {first component : Term} {last : Int} {g e : Event} {c : Nat} {subs : Substitution} :
      Fulfils n s first last c subs →
      List.Forall₂ (fun t t' => Variable_ApplySubstitute n t subs = .ok (t', true)) l l' → l'.getLast? = some component →
      Remaining n s l' (s.concept_storage c).belief_spike.occurrenceTime
        { Inference_GoalSequenceDeduction g (s.concept_storage c).belief_spike s.currentTime with term := component } rest e →
      Remaining n s (l ++ [first]) last g rest e

/-- `e` is the goal for the first component of the sequence `goal` which is not fulfilled. -/
def SubgoalOfSequence (n : Narsese) (s : Sys) (goal e : Event) : Prop :=
  n.Is (goal.term.get 0) SEQUENCE ∧ ∃ l, SequenceComponents n goal.term l ∧
    let updated := Inference_EventUpdate goal s.currentTime
    ((∃ first, l.getLast? = some first ∧
      e = { updated with term := first, truth := Truth_StructuralDeduction updated.truth updated.truth }) ∨
    ∃ rest, rest ≠ [] ∧ rest.length < l.length ∧ Remaining n s l (-1) updated rest e)

/-- The subgoals derived from the goals in `goals`, given with their priorities, at the time `now`. -/
inductive DerivesGoals (n : Narsese) (now : Int) (layer : Nat) (goals : List (Event × ℚ)) : Sys → Sys → Prop
  /-- The beginning. -/
  | refl {s : Sys} : DerivesGoals n now layer goals s s
  /-- What does not touch the goals which are waiting. -/
  | other {s0 s s' : Sys} : DerivesGoals n now layer goals s0 s → s'.goalBuffers = s.goalBuffers →
      DerivesGoals n now layer goals s0 s'
  /-- A subgoal is added, with the priority of the goal, weighted by how much it is desired. -/
  | subgoal {s0 s s' : Sys} {goal e : Event} {priority : ℚ} {t : Int} : DerivesGoals n now layer goals s0 s →
      (goal, priority) ∈ goals → SubgoalByLink n s now goal e ∨ SubgoalOfSequence n s goal e →
      Memory_AddEvent' n e t (fmul priority (Truth_Expectation e.truth)) false false layer s = .ok ((), s') →
      DerivesGoals n now layer goals s0 s'

/-- The goal of the highest priority, if there is one, is taken from the waiting goals of the layer. -/
def TakesGoal (layer : Nat) (s : Sys) (goals : List (Event × ℚ)) (s' : Sys) : Prop :=
  s'.cycling_goal_event_storage = s.cycling_goal_event_storage ∧
  (∀ l, l ≠ layer → s'.cycling_goal_events l = s.cycling_goal_events l) ∧
  (goals = [] ∧ (s.cycling_goal_events layer).contents = [] ∧ (s'.cycling_goal_events layer).contents = [] ∨
    ∃ x, (∀ y ∈ (s.cycling_goal_events layer).contents, y.priority ≤ x.priority) ∧
      (s.cycling_goal_events layer).contents.Perm (x :: (s'.cycling_goal_events layer).contents) ∧
      goals = [(s.cycling_goal_event_storage layer x.address, x.priority)])

/-- No goals are waiting any more. -/
def Sys.withoutGoals (s : Sys) : Sys :=
  { s with
    cycling_goal_events := fun layer => PriorityQueue.init (s.cycling_goal_events layer).items
      (s.cycling_goal_events layer).maxElements
    goalsSelectedCnt := 0 }

/-- The links of a concept, table by table. -/
def Concept.links (c : Concept) : List Implication :=
  (List.range (OPERATIONS_MAX + 1)).flatMap (fun o => (c.precondition_beliefs o).entries) ++ c.implication_links.entries

/-- The link is used for the goal `g`: if its consequence matches `g`, the condition becomes a goal. -/
inductive LinkUsed (n : Narsese) (now : Int) (priority : ℚ) (layer : Nat) (g : Event) (imp : Implication) (s : Sys) : Sys → Prop
  | subgoal {t : Term} {d e : Event} {s' : Sys} : Specialized n (Term_ExtractSubterm imp.term 2) g.term imp.term t →
      Inference_GoalDeduction n g { imp with term := t } now = .ok d → e = Inference_EventUpdate d now →
      Memory_AddEvent' n e now (fmul priority (Truth_Expectation e.truth)) false false layer s = .ok ((), s') →
      LinkUsed n now priority layer g imp s s'
  | different : (¬ ∃ t, Specialized n (Term_ExtractSubterm imp.term 2) g.term imp.term t) →
      LinkUsed n now priority layer g imp s s

/-- The links are used for the goal `g`, one after another; in between the waiting goals do not change. -/
inductive LinksUsed (n : Narsese) (now : Int) (priority : ℚ) (layer : Nat) (g : Event) : List Implication → Sys → Sys → Prop
  | nil {s : Sys} : LinksUsed n now priority layer g [] s s
  | other {l : List Implication} {s s1 s' : Sys} : s1.goalBuffers = s.goalBuffers → LinksUsed n now priority layer g l s1 s' →
      LinksUsed n now priority layer g l s s'
  | use {imp : Implication} {l : List Implication} {s s1 s' : Sys} : LinkUsed n now priority layer g imp s s1 →
      LinksUsed n now priority layer g l s1 s' → LinksUsed n now priority layer g (imp :: l) s s'

end ONA
