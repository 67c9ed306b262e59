import Verif.Spec.System
import Verif.Spec.InvertedAtomIndex
import Verif.Spec.Subgoals
/-
Which concepts an event concerns (C76).
-/
namespace ONA
open IndexSpec (Lists)

/-- The concept in cell `c` is in memory, and it is the concept of the term or shares an atom with it. -/
def Sys.Related (n : Narsese) (s : Sys) (t : Term) (c : Nat) : Prop :=
  c ∈ s.live ∧ (s.termOf c = t ∨ ∃ a, Lists n (s.termOf c) a ∧ Lists n t a)

/-- The concept is marked as visited. -/
def Sys.visited (s : Sys) (c : Nat) : Sys :=
  { s with concept_storage := upd s.concept_storage c { s.concept_storage c with processID := s.conceptProcessID } }

/-- The action `body` is performed for the concepts in the list, one after another, and nothing else happens. The flag
tells whether the action asked to go on each time. -/
inductive Visits {σ : Type} (body : Nat → σ → M (Bool × σ)) : List Nat → σ → Sys → Bool → σ → Sys → Prop
  | nil {st : σ} {s : Sys} : Visits body [] st s true st s
  | last {c : Nat} {st st' : σ} {s s' : Sys} : body c st (s.visited c) = .ok ((false, st'), s') →
      Visits body [c] st s false st' s'
  | cons {c : Nat} {l : List Nat} {st st1 st' : σ} {s s1 s' : Sys} {b : Bool} :
      body c st (s.visited c) = .ok ((true, st1), s1) → Visits body l st1 s1 b st' s' → Visits body (c :: l) st s b st' s'

/-- What the traversal depends on: the concepts in memory, their terms and marks, and the index. -/
structure SameMap (s s' : Sys) : Prop where
  concepts : s'.concepts = s.concepts
  table : s'.HTconcepts = s.HTconcepts
  index : s'.index = s.index
  count : s'.concept_id = s.concept_id
  mark : s'.conceptProcessID = s.conceptProcessID
  term : ∀ c, (s'.concept_storage c).term = (s.concept_storage c).term
  id : ∀ c, (s'.concept_storage c).id = (s.concept_storage c).id
  marks : ∀ c, (s'.concept_storage c).processID = (s.concept_storage c).processID

/-- All marks are outdated. -/
def Sys.unmarked (s : Sys) : Sys := { s with conceptProcessID := s.conceptProcessID + 1 }

section
variable [Arith]

/-- The concept notices the event at the time `now`: it is used, and keeps the event if it has none which is as recent. -/
def Concept.notices (c : Concept) (e : Event) (now : Int) : Concept :=
  { c with
    lastSelectionTime := now, usage := Usage_use c.usage now false
    belief_spike := if c.belief_spike.type = .deleted ∨ c.belief_spike.occurrenceTime < e.occurrenceTime then e
      else c.belief_spike }

/-- The concept in cell `c` notices the event. -/
def Sys.notice (s : Sys) (c : Nat) (e : Event) (now : Int) : Sys :=
  { s with concept_storage := upd s.concept_storage c ((s.concept_storage c).notices e now) }

/-- The concept, apart from the mark. -/
def Concept.plain (c : Concept) : Concept := { c with processID := 0 }

/-- The concept takes over the goal at the time `now`: it is used, and keeps the goal if it has none which is as recent. -/
def Concept.adopts (c : Concept) (e : Event) (now : Int) : Concept :=
  { c with
    lastSelectionTime := now, usage := Usage_use c.usage now false
    goal_spike := if c.goal_spike.type = .deleted ∨ c.goal_spike.occurrenceTime < e.occurrenceTime then e else c.goal_spike }

/-- The concept, apart from the mark and from the links of operations, of which those without a source are removed when an
operation is looked for. -/
def Concept.aside (c : Concept) : Concept := { c with processID := 0, precondition_beliefs := fun _ => Table.zero }

/-- The goals are pursued one after another: for each one, every related concept is visited once (C75_visit says what
happens there). -/
inductive Pursues (n : Narsese) (now : Int) (layer : Nat) : List (Event × ℚ) → Sys → Sys → Prop
  | nil {s : Sys} : Pursues n now layer [] s s
  | cons {goal : Event} {p : ℚ} {goals : List (Event × ℚ)} {l : List Nat} {s s1 s' : Sys} : l.Nodup →
      (∀ c, c ∈ l ↔ s.Related n goal.term c) →
      Visits (deriveSubgoals n goal p now layer) l () s.unmarked true () s1 → Pursues n now layer goals s1 s' →
      Pursues n now layer ((goal, p) :: goals) s s'

/-- How much the event of the concept in cell `c` is expected to hold now. -/
def Sys.expectation (s : Sys) (c : Nat) : ℚ :=
  Truth_Expectation (Truth_Projection (s.concept_storage c).belief_spike.truth
    (s.concept_storage c).belief_spike.occurrenceTime s.currentTime)

/-- The event of the concept in cell `c` can serve as the component `first`, and what it tells about the variables can be
used to specialize the components `later`. -/
def Serves (n : Narsese) (s : Sys) (first : Term) (later : List Term) (last : Int) (c : Nat) (subs : Substitution) : Prop :=
  Fulfils n s first last c subs ∧
    ∃ l', List.Forall₂ (fun t t' => Variable_ApplySubstitute n t subs = .ok (t', true)) later l'

/-- The concepts among which an event for the component is looked for: the related ones if it has variables, otherwise its
own concept. -/
def Sys.Eligible (n : Narsese) (s : Sys) (first : Term) (c : Nat) : Prop :=
  s.Related n first c ∧ (Variable_hasVariable n first true true true = true ∨ s.termOf c = first)

/-- From a goal `g` to achieve the components `l` (the last one first) after the time `last`, what is left to be achieved:
nothing, or a goal for the next of the components which are left. -/
inductive Decomposes (n : Narsese) (s : Sys) : List Term → Int → Event → Option (List Term × Event) → Prop
  /-- No event serves as the next component. -/
  | missing {later : List Term} {first : Term} {last : Int} {g : Event} :
      (∀ c subs, s.Eligible n first c → Serves n s first later last c subs → s.expectation c ≤ 0) →
      Decomposes n s (later ++ [first]) last g (some (later ++ [first], g))
  /-- All components have happened. -/
  | done {first : Term} {last : Int} {g : Event} {c : Nat} {subs : Substitution} :
      Serves n s first [] last c subs → Decomposes n s [first] last g none
  /-- The next component has happened: the event which is expected most to hold is taken. -/
  | next {later later' : List Term} {first component : Term} {last : Int} {g : Event} {c : Nat} {subs : Substitution}
      {r : Option (List Term × Event)} : later ≠ [] → s.Related n first c → Serves n s first later last c subs →
      (∀ c' subs', s.Eligible n first c' → Serves n s first later last c' subs' → s.expectation c' ≤ s.expectation c) →
      List.Forall₂ (fun t t' => Variable_ApplySubstitute n t subs = .ok (t', true)) later later' →
      later'.getLast? = some component →
      Decomposes n s later' (s.concept_storage c).belief_spike.occurrenceTime
        { Inference_GoalSequenceDeduction g (s.concept_storage c).belief_spike s.currentTime with term := component } r →
      Decomposes n s (later ++ [first]) last g r

/-- The goal `e` for the next component, if not all of them have happened. For the first component it is deduced from the
sequence alone. -/
def NextGoal (l rest : List Term) (g e : Event) : Prop :=
  if rest.length = l.length then ∃ first, l.getLast? = some first ∧
    e = { g with term := first, truth := Truth_StructuralDeduction g.truth g.truth }
  else e = g

end
/-- A sequence without independent and dependent variables. -/
def PlainSequence (n : Narsese) (t : Term) : Prop :=
  Narsese_copulaEquals n (t.get 0) SEQUENCE = true ∧ Variable_hasVariable n t true true false = false

end ONA
