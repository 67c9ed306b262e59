import Verif.Props.Memory
import Verif.Props.Table
import Verif.Props.Usage
import Verif.Props.Inference
import Verif.Props.Deduction
import Verif.Props.OccurrenceTimeIndex
import Verif.Spec.Vocabulary
/-
What holds of the whole state of the reasoner at any time, and the elementary changes of state.
-/
namespace ONA
variable [Arith]

/-- The truth value is inside the unit square, the evidence is listed without gaps, and the atoms are registered. -/
structure Event.Good (n : Narsese) (e : Event) : Prop where
  term : n.Knows e.term
  truth : e.truth.Valid
  stamp : e.stamp.WF

/-- The same for a link. -/
structure Implication.Good (n : Narsese) (i : Implication) : Prop where
  term : n.Knows i.term
  truth : i.truth.Valid
  stamp : i.stamp.WF

/-- A table of links: at most `TABLE_SIZE` links with different terms, ranked by expectation, all of them good. -/
structure Table.Good (n : Narsese) (t : Table) : Prop where
  inv : t.Inv
  good : ∀ e ∈ t.entries, e.Good n

/-- A number between 0 and 1. -/
def InUnit (x : ℚ) : Prop := 0 ≤ x ∧ x ≤ 1

/-- A concept. -/
structure Concept.Good (n : Narsese) (c : Concept) : Prop where
  term : n.Knows c.term
  belief : c.belief.Good n
  belief_type : c.belief.type ≠ .goal
  belief_time : c.belief.type ≠ .deleted → c.belief.occurrenceTime = OCCURRENCE_ETERNAL
  belief_spike : c.belief_spike.Good n
  predicted_belief : c.predicted_belief.Good n
  goal_spike : c.goal_spike.Good n
  precondition_beliefs : ∀ opi, (c.precondition_beliefs opi).Good n
  implication_links : c.implication_links.Good n
  useCount : 0 ≤ c.usage.useCount
  priority : InUnit c.priority

/-- The same event: same statement, truth value, time and evidence. -/
structure SameEvent (a b : Event) : Prop where
  term : a.term = b.term
  truth : a.truth = b.truth
  occurrenceTime : a.occurrenceTime = b.occurrenceTime
  evidence : a.stamp.ids = b.stamp.ids

/-- A buffer of events of a type. -/
structure BufferOk (n : Narsese) (type : EventType) (q : PriorityQueue ℚ Nat) (storage : Nat → Event) : Prop where
  queue : q.Inv
  pos : 0 < q.maxElements
  priority : ∀ x ∈ q.contents, InUnit x.priority
  type : ∀ x ∈ q.contents, (storage x.address).type = type
  confidence : ∀ x ∈ q.contents, MIN_CONFIDENCE ≤ (storage x.address).truth.confidence
  time : ∀ x ∈ q.contents, (storage x.address).type = .goal → (storage x.address).occurrenceTime ≠ OCCURRENCE_ETERNAL
  good : ∀ i, (storage i).Good n

/-- The first `k` selected beliefs. -/
def SelectedBeliefs (n : Narsese) (k : Nat) (s : Sys) : Prop :=
  ∀ i < k, (s.selectedBeliefs i).Good n ∧ InUnit (s.selectedBeliefsPriority i) ∧ (s.selectedBeliefs i).type = .belief

/-- The first `k` selected goals. -/
def SelectedGoals (n : Narsese) (k : Nat) (s : Sys) : Prop :=
  ∀ i < k, (s.selectedGoals i).Good n ∧ InUnit (s.selectedGoalsPriority i) ∧
    (s.selectedGoals i).occurrenceTime ≠ OCCURRENCE_ETERNAL

/-- A link at the concept of a term: the term is the consequence of the link, and the source of the link is in memory. -/
def LinkFits (concepts : PriorityQueue ℚ Nat) (storage : Nat → Concept) (t : Term) (imp : Implication) : Prop :=
  Term_ExtractSubterm imp.term 2 = t ∧ ∃ src ∈ concepts.contents.map (·.address), imp.sourceConcept = some src ∧
    imp.sourceConceptId = (storage src).id

/-- What a concept knows is about its own term. -/
structure AtHome (concepts : PriorityQueue ℚ Nat) (storage : Nat → Concept) (c : Concept) : Prop where
  belief : c.belief.type ≠ .deleted → c.belief.term = c.term
  precondition_beliefs : ∀ opi, ∀ imp ∈ (c.precondition_beliefs opi).entries, LinkFits concepts storage c.term imp
  implication_links : ∀ imp ∈ c.implication_links.entries, LinkFits concepts storage c.term imp

/-- The memory is full. -/
def Sys.full (s : Sys) : Prop := s.concepts.maxElements ≤ s.concepts.contents.length

/-- The invariant of the state. -/
structure Good (n : Narsese) (s : Sys) : Prop where
  mem : MemInv n s
  prios : PriosLeOne s
  concepts : ∀ c, (s.concept_storage c).Good n
  beliefs : BufferOk n .belief s.cycling_belief_events s.cycling_belief_event_storage
  goals : ∀ layer, BufferOk n .goal (s.cycling_goal_events layer) (s.cycling_goal_event_storage layer)
  layers : ∀ layer, CYCLING_GOAL_EVENTS_LAYERS ≤ layer → (s.cycling_goal_events layer).itemsAmount = 0
  beliefsOnce : ∀ x ∈ s.cycling_belief_events.contents, ∀ y ∈ s.cycling_belief_events.contents,
    x.address ≠ y.address →
      ¬ SameEvent (s.cycling_belief_event_storage x.address) (s.cycling_belief_event_storage y.address)
  goalsOnce : ∀ l k, ∀ x ∈ (s.cycling_goal_events l).contents, ∀ y ∈ (s.cycling_goal_events k).contents,
    (l, x.address) ≠ (k, y.address) →
      ¬ SameEvent (s.cycling_goal_event_storage l x.address) (s.cycling_goal_event_storage k y.address)
  anticipation : Unit01 s.ANTICIPATION_CONFIDENCE
  base : n.Base
  operations : ∀ k, (s.operations k).Known n
  stdin : ∀ t, some t ∈ s.stdin → n.Knows t
  importstamp : s.event.importstamp.WF
  priming : s.QUESTION_PRIMING ≤ 1
  /-- The occurrence time index is what was added since the last reset: concepts in memory, as long as no concept was
  forgotten. -/
  history : ∃ added : List Nat, s.occurrenceTimeIndex = OccurrenceTimeIndex.afterAdds added ∧
    (s.full ∨ ∀ c ∈ added, c ∈ s.concepts.contents.map (·.address))
  /-- The marks of the concepts which were visited are not ahead of the next one. -/
  marks : 0 ≤ s.conceptProcessID ∧ ∀ c, (s.concept_storage c).processID ≤ s.conceptProcessID
  marks2 : 0 ≤ s.conceptProcessID2 ∧ ∀ c, (s.concept_storage c).processID2 ≤ s.conceptProcessID2
  marks3 : 0 ≤ s.conceptProcessID3 ∧ ∀ c, (s.concept_storage c).processID3 ≤ s.conceptProcessID3
  /-- As long as the memory was never full: forgetting a concept in the middle of a function can leave its new content behind
  in the concept which replaces it. -/
  home : s.concepts.contents.length < s.concepts.maxElements →
    ∀ c ∈ s.concepts.contents.map (·.address), AtHome s.concepts s.concept_storage (s.concept_storage c)

/-- Elementary changes of a table of links: only links which are `bad` are removed, only links which are `fit` are added. -/
inductive TableStep (n : Narsese) (bad fit : Implication → Prop) : Table → Table → Prop where
  | remove (t : Table) (i : Nat) : i < t.itemsAmount → bad (t.array i) → TableStep n bad fit t (Table_Remove t i)
  | add (t t' : Table) (imp : Implication) (r : Option Nat) : imp.Good n → fit imp →
      Table_AddAndRevise t imp = .ok (r, t') → TableStep n bad fit t t'
  | addAs (t t' : Table) (imp : Implication) (r : Option Nat) : imp.Good n → imp.sourceConcept.isSome → fit imp →
      Table_AddAndRevise t imp = .ok (r, t') → TableStep n bad fit t (overwriteSource imp (r, t'))

/-- Any number of changes. -/
inductive TableSteps (n : Narsese) (bad fit : Implication → Prop) (t : Table) : Table → Prop where
  | refl : TableSteps n bad fit t t
  | step {t' t'' : Table} : TableSteps n bad fit t t' → TableStep n bad fit t' t'' → TableSteps n bad fit t t''

/-- The marks for concepts which are visited. -/
def Sys.marks (s : Sys) : Int × Int × Int := (s.conceptProcessID, s.conceptProcessID2, s.conceptProcessID3)

/-- The marks of a concept are as before, or new. -/
def Marked (mark : Int × Int × Int) (c : Concept) (i1 i2 i3 : Int) : Prop :=
  (i1 = c.processID ∨ i1 = mark.1) ∧ (i2 = c.processID2 ∨ i2 = mark.2.1) ∧ (i3 = c.processID3 ∨ i3 = mark.2.2)

theorem Marked.same {mark : Int × Int × Int} {c : Concept} : Marked mark c c.processID c.processID2 c.processID3 :=
  ⟨.inl rfl, .inl rfl, .inl rfl⟩

theorem Marked.first {mark : Int × Int × Int} {c : Concept} : Marked mark c mark.1 c.processID2 c.processID3 :=
  ⟨.inr rfl, .inl rfl, .inl rfl⟩

theorem Marked.second {mark : Int × Int × Int} {c : Concept} : Marked mark c c.processID mark.2.1 c.processID3 :=
  ⟨.inl rfl, .inr rfl, .inl rfl⟩

theorem Marked.third {mark : Int × Int × Int} {c : Concept} : Marked mark c c.processID c.processID2 mark.2.2 :=
  ⟨.inl rfl, .inl rfl, .inr rfl⟩

/-- Elementary changes of a concept: only events which are `own` become its eternal belief, and `mark` marks it as visited. -/
inductive ConceptStep (n : Narsese) (mark : Int × Int × Int) (own : Event → Prop) (bad fit : Implication → Prop) (c : Concept) : Concept → Prop where
  | attention (u : Usage) (p : ℚ) (i1 i2 i3 t : Int) : 0 ≤ u.useCount → InUnit p → Marked mark c i1 i2 i3 →
      ConceptStep n mark own bad fit c
      { c with usage := u, priority := p, processID := i1, processID2 := i2, processID3 := i3, lastSelectionTime := t }
  | belief (e e' : Event) (r : Bool) (t : Int) : e.Good n → e.type = .belief → e.occurrenceTime = OCCURRENCE_ETERNAL → own e →
      Inference_RevisionAndChoice n c.belief e = .ok (e', r) →
      ConceptStep n mark own bad fit c { c with belief := { e' with creationTime := t } }
  | belief_spike (e : Event) : e.Good n → ConceptStep n mark own bad fit c { c with belief_spike := e }
  | predicted_belief (e : Event) : e.Good n → ConceptStep n mark own bad fit c { c with predicted_belief := e }
  | goal_spike (e : Event) : e.Good n → ConceptStep n mark own bad fit c { c with goal_spike := e }
  | precondition_beliefs (opi : Nat) (t : Table) : TableSteps n bad fit (c.precondition_beliefs opi) t →
      ConceptStep n mark own bad fit c { c with precondition_beliefs := upd c.precondition_beliefs opi t }
  | implication_links (t : Table) : TableSteps n bad fit c.implication_links t →
      ConceptStep n mark own bad fit c { c with implication_links := t }

/-- A change of concept `i`: unless the memory is full, its belief and its new links belong there. Links are removed
if their source was forgotten. -/
abbrev ConceptChange (n : Narsese) (s : Sys) (i : Nat) (c : Concept) : Prop :=
  ConceptStep n s.marks (fun e => s.full ∨ e.term = (s.concept_storage i).term) (fun imp => s.implicationValid imp = .ok false)
    (fun imp => s.full ∨ LinkFits s.concepts s.concept_storage (s.concept_storage i).term imp) (s.concept_storage i) c

/-- Elementary changes of state during an inference cycle. -/
inductive Step (n : Narsese) (s : Sys) : Sys → Prop where
  | conceptualize (t : Term) (now : Int) (r : Option Nat) (s' : Sys) : n.Knows t →
      Memory_Conceptualize n t now s = .ok (r, s') → Step n s s'
  | concept (i : Nat) (c : Concept) : ConceptChange n s i c →
      Step n s { s with concept_storage := upd s.concept_storage i c }
  | pushBelief (e : Event) (p : ℚ) (b : Bool) (s' : Sys) : e.Good n → e.type = .belief →
      MIN_CONFIDENCE ≤ e.truth.confidence → 0 < p → p ≤ 1 →
      Memory_containsEvent s.cycling_belief_events s.cycling_belief_event_storage e = false →
      pushBeliefEvent e p s = .ok (b, s') → Step n s s'
  | pushGoal (e : Event) (p : ℚ) (layer : Nat) (b : Bool) (s' : Sys) : e.Good n → e.type = .goal → e.occurrenceTime ≠ OCCURRENCE_ETERNAL →
      MIN_CONFIDENCE ≤ e.truth.confidence → 0 < p → p ≤ 1 → layer < CYCLING_GOAL_EVENTS_LAYERS →
      (∀ l < CYCLING_GOAL_EVENTS_LAYERS,
        Memory_containsEvent (s.cycling_goal_events l) (s.cycling_goal_event_storage l) e = false) →
      pushGoalEvent e p layer s = .ok (b, s') → Step n s s'
  | popBelief (s' : Sys) : popBeliefEvents s = .ok ((), s') → Step n s s'
  | popGoal (layer : Nat) (s' : Sys) : popGoalEvents layer s = .ok ((), s') → Step n s s'
  | clearGoals : Step n s { s with
      cycling_goal_events := fun layer => PriorityQueue.init (s.cycling_goal_events layer).items
        (s.cycling_goal_events layer).maxElements
      goalsSelectedCnt := 0 }
  | forget (now : Int) (s' : Sys) : Cycle_RelativeForgetting now s = .ok ((), s') → Step n s s'
  | remember (c : Nat) : s.full ∨ c ∈ s.concepts.contents.map (·.address) → Step n s { s with occurrenceTimeIndex := s.occurrenceTimeIndex.add c }
  | internal (threshold : ℚ) (i1 i2 i3 m1 m2 : Int) (r : BitVec 64)
      (input : List (Option Term)) : (∀ t, some t ∈ input → n.Knows t) → s.conceptProcessID ≤ i1 →
      s.conceptProcessID2 ≤ i2 → s.conceptProcessID3 ≤ i3 → Step n s { s with
        conceptPriorityThreshold := threshold, conceptProcessID := i1
        conceptProcessID2 := i2, conceptProcessID3 := i3, Stats_countConceptsMatchedTotal := m1
        Stats_countConceptsMatchedMax := m2, next := r, stdin := input }
  | decision (d : ℚ) (imp : Implication) : s.DECISION_THRESHOLD ≤ d →
      Step n s { s with output := s.output ++ [.decision d imp] }

/-- The last line printed is a decision of at least the given desire. -/
def Pending (threshold : ℚ) (log : List Output) : Prop :=
  ∃ before d imp, log = before ++ [.decision d imp] ∧ threshold ≤ d

/-- What justifies the execution of operation `op` (counting from 1): a decision of at least the decision threshold, or babbling,
which is restricted to the first `BABBLING_OPS` operations. -/
def Justified (s : Sys) (op : Nat) : Prop :=
  Pending s.DECISION_THRESHOLD s.output ∨ 0 < s.MOTOR_BABBLING_CHANCE ∧ op ≤ s.BABBLING_OPS

/-- The arguments an operation may be executed with: none, or those of the system itself, `({SELF} * …)`. -/
def OwnArguments (n : Narsese) (args : Term) : Prop := args = Term.zero ∨ args.get 3 = n.SELF

end ONA
