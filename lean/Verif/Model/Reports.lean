import Verif.Model.Cycle
/-
Model of the commands of the shell which print something about the state (src/Stats.c, src/Shell.c 115-232,
src/InvertedAtomIndex.c 120-142). What is printed is given as data; the text around it, and the conversion of numbers and terms
to text, are left out.
-/
namespace ONA
variable [Arith]

/-- The loops over the items of a queue. -/
def PriorityQueue.inOrder {α β : Type} (q : PriorityQueue α β) : List (Item α β) := (List.range q.itemsAmount).map q.items

/-- The loop over the entries of a table (src/Shell.c 193-197). -/
def Table.inOrder (t : Table) : List Implication := (List.range t.itemsAmount).map t.array

/-- The numbers printed by `Stats_Print`. -/
structure Stats where
  conceptsMatchedTotal : Int
  conceptsMatchedMax : Int
  conceptsMatchedAverage : Int
  currentTime : Int
  totalConcepts : Nat
  averageConceptPriority : ℚ
  averageConceptUsefulness : ℚ
  beliefEvents : Nat
  goalEvents : Nat
  averageBeliefEventPriority : ℚ
  averageGoalEventPriority : ℚ
  maximumConceptChain : Nat
  maximumAtomChain : Nat

/-- A sum, added up one after the other. -/
def sumUp (l : List ℚ) : ℚ := l.foldl fadd 0

/-- The goal buffers from layer 0 to the last. -/
def Sys.goalQueues (s : Sys) : List (PriorityQueue ℚ Nat) := (List.range CYCLING_GOAL_EVENTS_LAYERS).map s.cycling_goal_events

/-- `Stats_Print` (src/Stats.c 30-82). The constants `CONCEPTS_MAX`, `CYCLING_BELIEF_EVENTS_MAX` and `CYCLING_GOAL_EVENTS_MAX` are the
sizes of the queues. -/
def Stats_Print (n : Narsese) (s : Sys) : R Stats := do
  let beliefs ← fdiv (sumUp (s.cycling_belief_events.inOrder.map (·.priority))) (rnd s.cycling_belief_events.maxElements)
  let goals ← fdiv (sumUp (s.goalQueues.flatMap fun q => q.inOrder.map (·.priority))) (rnd (s.cycling_goal_events 0).maxElements)
  let priorities ← fdiv (sumUp (s.concepts.inOrder.map fun x => (s.concept_storage x.address).priority)) (rnd s.concepts.maxElements)
  let usefulness ← fdiv (sumUp (s.concepts.inOrder.map (·.priority))) (rnd s.concepts.maxElements)
  if s.currentTime = 0 then .error (.ub "division by zero")
  let chain1 ← s.HTconcepts.maximumChainLength
  let chain2 ← n.HTatoms.maximumChainLength
  .ok { conceptsMatchedTotal := s.Stats_countConceptsMatchedTotal
        conceptsMatchedMax := s.Stats_countConceptsMatchedMax
        conceptsMatchedAverage := s.Stats_countConceptsMatchedTotal.tdiv s.currentTime
        currentTime := s.currentTime
        totalConcepts := s.concepts.itemsAmount
        averageConceptPriority := priorities
        averageConceptUsefulness := usefulness
        beliefEvents := s.cycling_belief_events.itemsAmount
        goalEvents := (s.goalQueues.map (·.itemsAmount)).sum
        averageBeliefEventPriority := beliefs
        averageGoalEventPriority := goals
        maximumConceptChain := chain1
        maximumAtomChain := chain2 }

/-- What `*concepts` prints about a concept (src/Shell.c 156-198). -/
structure ConceptLine where
  term : Term
  priority : ℚ
  usefulness : ℚ
  useCount : Int
  lastUsed : Int
  truth : Truth
  /-- left, right, left of left, right of left, left of right, right of right -/
  termlinks : List Term
  belief : Option Event
  links : List Implication

/-- `*concepts` (src/Shell.c 150-202). The tables are those of the operations with an index below `OPERATIONS_MAX`. -/
def Shell_concepts (s : Sys) : List ConceptLine :=
  s.concepts.inOrder.map fun item =>
    let c := s.concept_storage item.address
    let left := Term_ExtractSubterm c.term 1
    let right := Term_ExtractSubterm c.term 2
    { term := c.term
      priority := c.priority
      usefulness := item.priority
      useCount := c.usage.useCount
      lastUsed := c.usage.lastUsed
      truth := c.belief.truth
      termlinks := [left, right, Term_ExtractSubterm left 1, Term_ExtractSubterm left 2, Term_ExtractSubterm right 1,
        Term_ExtractSubterm right 2]
      belief := if c.belief.type ≠ .deleted then some c.belief else none
      links := (List.range OPERATIONS_MAX).flatMap fun opi => (c.precondition_beliefs opi).inOrder }

/-- What is printed about an event in a buffer (src/Shell.c 211-213, 226-228). -/
structure EventLine where
  term : Term
  priority : ℚ
  time : Int
  truth : Truth

/-- `*cycling_belief_events` (src/Shell.c 203-216). -/
def Shell_beliefEvents (s : Sys) : List EventLine :=
  s.cycling_belief_events.inOrder.map fun item =>
    let e := s.cycling_belief_event_storage item.address
    ⟨e.term, item.priority, e.occurrenceTime, e.truth⟩

/-- `*cycling_goal_events` (src/Shell.c 217-232). -/
def Shell_goalEvents (s : Sys) : List EventLine :=
  (List.range CYCLING_GOAL_EVENTS_LAYERS).flatMap fun layer =>
    (s.cycling_goal_events layer).inOrder.map fun item =>
      let e := s.cycling_goal_event_storage layer item.address
      ⟨e.term, item.priority, e.occurrenceTime, e.truth⟩

/-- What `*opconfig` prints. -/
structure OperationConfig where
  motorBabbling : ℚ
  babblingOps : Nat
  /-- number and name -/
  names : List (Nat × Term)
  /-- number, number of the argument, and argument -/
  arguments : List (Nat × Nat × Term)

/-- `*opconfig` (src/Shell.c 127-149). The order of the lines is left out. -/
def Shell_opConfig (s : Sys) : OperationConfig :=
  { motorBabbling := s.MOTOR_BABBLING_CHANCE
    babblingOps := s.BABBLING_OPS
    names := ((List.range OPERATIONS_MAX).filter fun opi => (s.operations opi).term.get 0 ≠ 0).map fun opi =>
      (opi + 1, (s.operations opi).term)
    arguments := (List.range OPERATIONS_MAX).flatMap fun opi =>
      ((List.range OPERATIONS_BABBLE_ARGS_MAX).filter fun oparg => ((s.operations opi).arguments oparg).get 0 ≠ 0).map fun oparg =>
        (opi + 1, oparg + 1, (s.operations opi).arguments oparg) }

/-- The inner loop of `InvertedAtomIndex_Print` (src/InvertedAtomIndex.c 128-138). -/
def atomLines (s : Sys) (atom : Atom) : R (List (Atom × Term)) := do
  let l ← s.index.follow (s.index.poolSize + 1) (s.index.invertedAtomIndex atom.toNat)
  l.mapM fun c => match c with
    | none => .error (.assertFail "A null concept was in inverted atom index!")
    | some c => .ok (atom, (s.concept_storage c).term)

/-- `InvertedAtomIndex_Print` (src/InvertedAtomIndex.c 120-142). -/
def InvertedAtomIndex_Print (n : Narsese) (s : Sys) : R (List (Atom × Term)) := do
  let l ← (List.range ATOMS_MAX).mapM fun i =>
    if Narsese_IsSimpleAtom n (toAtom i) then atomLines s (toAtom i) else .ok []
  .ok l.flatten

/-- The commands which print something about the state. -/
inductive Report where
  | stats
  | invertedAtomIndex
  | opConfig
  | concepts
  | beliefEvents
  | goalEvents

/-- What is printed. -/
inductive Reported where
  | stats (x : Stats)
  | invertedAtomIndex (l : List (Atom × Term))
  | opConfig (x : OperationConfig)
  | concepts (l : List ConceptLine)
  | events (l : List EventLine)

/-- The report (src/Shell.c 115-232). -/
def Report.print (n : Narsese) (s : Sys) : Report → R Reported
  | .stats => do .ok (.stats (← Stats_Print n s))
  | .invertedAtomIndex => do .ok (.invertedAtomIndex (← InvertedAtomIndex_Print n s))
  | .opConfig => .ok (.opConfig (Shell_opConfig s))
  | .concepts => .ok (.concepts (Shell_concepts s))
  | .beliefEvents => .ok (.events (Shell_beliefEvents s))
  | .goalEvents => .ok (.events (Shell_goalEvents s))

end ONA
