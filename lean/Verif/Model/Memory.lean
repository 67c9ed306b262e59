import Verif.Model.Sys
/-
Model of src/Memory.c. Printing (src/Memory.c 237-281, 325-331, 352-361, 366-376) is not modelled: it changes no
state. The `IN_DEBUG` assertions (src/Memory.c 120-122, 136-138) are compiled out.
-/
namespace ONA

/-- The callbacks of the concept hash table (src/Memory.c 91): keys point to the terms inside the concepts;
`Term_Equal` is equality of the atoms and `Term_Hash` the hash of the atoms (properties C26, C27). -/
def Sys.termOps (s : Sys) : KeyOps Nat Term where
  deref c := (s.concept_storage c).term
  equal a b := decide (a = b)
  hash t := t.hashValue.toInt

/-- Sizes of the arrays; the program uses `MemorySizes.program`. -/
structure MemorySizes where
  concepts : Nat
  buckets : Nat
  beliefEvents : Nat
  goalEvents : Nat

/-- src/Config.h 121-129. -/
def MemorySizes.program : MemorySizes :=
  ⟨CONCEPTS_MAX, CONCEPTS_HASHTABLE_BUCKETS, CYCLING_BELIEF_EVENTS_MAX, CYCLING_GOAL_EVENTS_MAX⟩

/-- A priority queue whose item `i` points to storage cell `i`, as set up by `Memory_ResetEvents` and
`Memory_ResetConcepts` (src/Memory.c 54-81). -/
def freshQueue (max : Nat) : PriorityQueue ℚ Nat := PriorityQueue.init (fun i => ⟨0, i⟩) max

/-- `Memory_INIT` (src/Memory.c 88-102) with given array sizes. -/
def Memory_INIT_sizes (sz : MemorySizes) : M Unit := do
  let ht ← HashTable.init sz.buckets sz.concepts
  let idx ← InvertedAtomIndex.initWith (UNIFICATION_DEPTH * sz.concepts)
  modify fun s => { s with
    RESTRICTED_CONCEPT_CREATION := false
    HTconcepts := ht
    conceptPriorityThreshold := 0
    concepts := freshQueue sz.concepts
    concept_storage := fun _ => Concept.zero
    cycling_belief_events := freshQueue sz.beliefEvents
    cycling_belief_event_storage := fun _ => Event.zero
    cycling_goal_events := fun _ => freshQueue sz.goalEvents
    cycling_goal_event_storage := fun _ _ => Event.zero
    index := idx
    occurrenceTimeIndex := OccurrenceTimeIndex.zero
    operations := fun _ => Operation.zero
    concept_id := 0 }

/-- `Memory_INIT` (src/Memory.c 88-102). -/
def Memory_INIT : M Unit := Memory_INIT_sizes MemorySizes.program

/-- `Memory_FindConceptByTerm` (src/Memory.c 104-107). -/
def Memory_FindConceptByTerm (term : Term) : M (Option Nat) := do
  let s ← get
  s.HTconcepts.get s.termOps term

/-- Assignment to the members of a concept. -/
def modifyConcept (c : Nat) (f : Concept → Concept) : M Unit :=
  modify fun s => { s with concept_storage := upd s.concept_storage c (f (s.concept_storage c)) }

/-- Removing an evicted concept from the hash table and the atom index (src/Memory.c 118-126). -/
def forgetConcept (n : Narsese) (c : Nat) : M Unit := do
  let s ← get
  let ht ← s.HTconcepts.delete s.termOps (s.concept_storage c).term
  let idx ← InvertedAtomIndex_RemoveConcept n s.index (s.concept_storage c).term c
  set { s with HTconcepts := ht, index := idx }

/-- Filling a concept cell (src/Memory.c 127-139). -/
def createConcept (n : Narsese) (c : Nat) (term : Term) (currentTime : Int) : M Unit := do
  let s ← get
  let idx ← InvertedAtomIndex_AddConcept n s.index term c
  let s := { s with
    index := idx
    concept_storage := upd s.concept_storage c
      { Concept.zero with term := term, id := s.concept_id, usage := ⟨1, currentTime⟩ }
    concept_id := s.concept_id + 1 }
  let ht ← s.HTconcepts.set s.termOps c c
  set { s with HTconcepts := ht }

/-- `Memory_Conceptualize` (src/Memory.c 109-149). -/
def Memory_Conceptualize (n : Narsese) (term : Term) (currentTime : Int) : M (Option Nat) := do
  match (← Memory_FindConceptByTerm term) with
  | some c => pure (some c)
  | none =>
    let s ← get
    let (feedback, q) ← s.concepts.push 1
    set { s with concepts := q }
    match feedback.addedItem with
    | none => pure none
    | some item =>
      if feedback.evictedItem.isSome then forgetConcept n item.address
      createConcept n item.address term currentTime
      pure (some item.address)

/-- `Memory_containsEvent` (src/Memory.c 158-168). -/
def Memory_containsEvent (queue : PriorityQueue ℚ Nat) (storage : Nat → Event) (event : Event) : Bool :=
  (List.range queue.itemsAmount).any fun i => Event_Equal event (storage (queue.items i).address)

/-- `Memory_containsBeliefOrGoal` (src/Memory.c 170-198). -/
def Memory_containsBeliefOrGoal (e : Event) : M Bool := do
  match (← Memory_FindConceptByTerm e.term) with
  | none => pure false
  | some i =>
    let c := (← get).concept_storage i
    if e.type = .belief then
      if e.occurrenceTime = OCCURRENCE_ETERNAL then
        pure (decide (c.belief.type ≠ .deleted) && Event_Equal e c.belief)
      else
        pure (decide (c.belief_spike.type ≠ .deleted) && Event_EqualTermEqualStampLessConfidentThan e c.belief_spike)
    else
      pure (decide (e.type = .goal) && decide (c.goal_spike.type ≠ .deleted) && Event_Equal c.goal_spike e)

/-- The test for a stronger eternal belief (src/Memory.c 219-226). -/
def strongerBeliefKnown (e : Event) : M Bool := do
  match (← Memory_FindConceptByTerm e.term) with
  | none => pure false
  | some i =>
    let c := (← get).concept_storage i
    pure (decide (e.type = .belief) && decide (c.belief.type ≠ .deleted) &&
      decide (e.occurrenceTime = OCCURRENCE_ETERNAL) && decide (c.belief.truth.confidence > e.truth.confidence))

/-- Pushing into the belief buffer (src/Memory.c 227-234). -/
def pushBeliefEvent (e : Event) (priority : ℚ) : M Bool := do
  let s ← get
  let (feedback, q) ← s.cycling_belief_events.push priority
  match feedback.addedItem with
  | none => set { s with cycling_belief_events := q }; pure false
  | some item =>
    set { s with
      cycling_belief_events := q
      cycling_belief_event_storage := upd s.cycling_belief_event_storage item.address e }
    pure true

/-- Pushing into the goal buffer of a layer (src/Memory.c 227-234). -/
def pushGoalEvent (e : Event) (priority : ℚ) (layer : Nat) : M Bool := do
  let s ← get
  let (feedback, q) ← (s.cycling_goal_events layer).push priority
  let s := { s with cycling_goal_events := upd s.cycling_goal_events layer q }
  match feedback.addedItem with
  | none => set s; pure false
  | some item =>
    let storage := upd (s.cycling_goal_event_storage layer) item.address e
    set { s with cycling_goal_event_storage := upd s.cycling_goal_event_storage layer storage }
    pure true

/-- `Memory_addCyclingEvent` (src/Memory.c 202-235). -/
def Memory_addCyclingEvent (e : Event) (priority : ℚ) (layer : Nat) : M Bool := do
  cassert (decide (e.type = .belief) || decide (e.type = .goal))
    "Only belief and goals events can be added to cycling events queue!"
  let s ← get
  if decide (e.type = .belief) && Memory_containsEvent s.cycling_belief_events s.cycling_belief_event_storage e then
    pure false
  else if (← Memory_containsBeliefOrGoal e) then pure false
  else if decide (e.type = .goal) && (List.range CYCLING_GOAL_EVENTS_LAYERS).any (fun layer =>
      Memory_containsEvent (s.cycling_goal_events layer) (s.cycling_goal_event_storage layer) e) then pure false
  else if (← strongerBeliefKnown e) then pure false
  else if e.type = .belief then pushBeliefEvent e priority
  else pushGoalEvent e priority (min (CYCLING_GOAL_EVENTS_LAYERS - 1) (layer + 1))

/-- The parameter `Event *event` of `Memory_AddEvent`: the caller's own copy, or the belief inside a concept
(src/Memory.c 372 passes `&c->belief`), whose content changes when that concept is recycled meanwhile. -/
inductive EventRef where
  | val (e : Event)
  | belief (c : Nat)

/-- Reading through the pointer. -/
def EventRef.load : EventRef → M Event
  | .val e => pure e
  | .belief c => do
    let s ← get
    pure (s.concept_storage c).belief

/-- `Memory_getOperationID` (src/Memory.c 444-458) in a given state: the loop finds the first operation with the
atom. -/
def Sys.operationID (s : Sys) (n : Narsese) (term : Term) : Nat :=
  let op_atom := Narsese_getOperationAtom n term
  if op_atom ≠ 0 then
    match (List.range OPERATIONS_MAX).find? fun k => (s.operations k).term.get 0 = op_atom with
    | some k => k + 1
    | none => 0
  else 0

/-- `Memory_getOperationID` (src/Memory.c 444-458). -/
def Memory_getOperationID (n : Narsese) (term : Term) : M Nat := do
  let s ← get
  pure (s.operationID n term)

/-- Operation id and source term of an implication's subject (src/Memory.c 293-316); `none` is the `return` for
operations of other agents (line 303). -/
def linkSource (n : Narsese) (implication subject : Term) : M (Option (Nat × Term)) := do
  if Narsese_copulaEquals n (implication.get 0) TEMPORAL_IMPLICATION &&
      Narsese_copulaEquals n (subject.get 0) SEQUENCE then
    let potential_op := Term_ExtractSubterm subject 2
    if Narsese_isOperation n potential_op then
      if !Narsese_isExecutableOperation n potential_op then pure none
      else
        let opi ← Memory_getOperationID n potential_op
        pure (some (opi, Narsese_GetPreconditionWithoutOp n termDepth subject))
    else pure (some (0, subject))
  else pure (some (0, subject))

section
variable [Arith]

/-- `Table_AddAndRevise` on the table of a concept the implication belongs to (src/Memory.c 324). -/
def addLink (n : Narsese) (target : Nat) (opi : Nat) (imp : Implication) : M Unit := do
  let c := (← get).concept_storage target
  if Narsese_copulaEquals n (imp.term.get 0) IMPLICATION then
    let (_, t) ← Table_AddAndRevise c.implication_links imp
    modifyConcept target fun c => { c with implication_links := t }
  else
    let (_, t) ← Table_AddAndRevise (c.precondition_beliefs opi) imp
    modifyConcept target fun c => { c with precondition_beliefs := upd c.precondition_beliefs opi t }

/-- First half of `Memory_ProcessNewBeliefEvent` (src/Memory.c 287-335): storing an implication as a link in the
concept of its predicate. The result says whether the function continues. -/
def processImplication (n : Narsese) (ref : EventRef) (currentTime : Int) (eternalInput : Bool) (eternal_event : Event) :
    M Bool := do
  let event ← ref.load
  if Narsese_copulaEquals n (event.term.get 0) TEMPORAL_IMPLICATION ||
      Narsese_copulaEquals n (event.term.get 0) IMPLICATION then
    let subject := Term_ExtractSubterm event.term 1
    let predicate := Term_ExtractSubterm event.term 2
    match (← Memory_Conceptualize n predicate currentTime) with
    | none => pure true
    | some target =>
      modifyConcept target fun c => { c with usage := Usage_use c.usage currentTime eternalInput }
      let event ← ref.load
      let occurrenceTimeOffset := event.occurrenceTimeOffset
      match (← linkSource n event.term subject) with
      | none => pure false
      | some (opi, sourceConceptTerm) =>
        match (← Memory_Conceptualize n sourceConceptTerm currentTime) with
        | none => pure true
        | some source =>
          modifyConcept source fun c => { c with usage := Usage_use c.usage currentTime eternalInput }
          let event ← ref.load
          let s ← get
          addLink n target opi
            { truth := eternal_event.truth, stamp := eternal_event.stamp, occurrenceTimeOffset := occurrenceTimeOffset
              creationTime := currentTime, sourceConceptId := (s.concept_storage source).id
              sourceConcept := some source, term := event.term }
          pure true
  else pure true

/-- Updating the beliefs of the concept of the event (src/Memory.c 341-369); the result is `revision_happened`. -/
def updateBeliefs (n : Narsese) (event eternal_event : Event) (i : Nat) (currentTime : Int) (priority : ℚ)
    (eternalInput : Bool) : M Bool := do
  if event.occurrenceTime ≠ OCCURRENCE_ETERNAL &&
      !(Narsese_copulaEquals n (event.term.get 0) HAS_CONTINUOUS_PROPERTY &&
        !Narsese_copulaEquals n (event.term.get 1) PRODUCT) then
    modify fun s => { s with occurrenceTimeIndex := s.occurrenceTimeIndex.add i }
  modifyConcept i fun c =>
    { c with usage := Usage_use c.usage currentTime eternalInput, priority := cMAX c.priority priority }
  if event.occurrenceTime ≠ OCCURRENCE_ETERNAL && event.occurrenceTime ≤ currentTime then
    let c := (← get).concept_storage i
    let (e, _) ← Inference_RevisionAndChoice n c.belief_spike event
    modifyConcept i fun c => { c with belief_spike := { e with creationTime := currentTime } }
  if event.occurrenceTime ≠ OCCURRENCE_ETERNAL && event.occurrenceTime > currentTime then
    let c := (← get).concept_storage i
    let (e, _) ← Inference_RevisionAndChoice n c.predicted_belief event
    modifyConcept i fun c => { c with predicted_belief := { e with creationTime := currentTime } }
  let c := (← get).concept_storage i
  let (e, revision_happened) ← Inference_RevisionAndChoice n c.belief eternal_event
  modifyConcept i fun c => { c with belief := { e with creationTime := currentTime } }
  pure revision_happened

/-- `Memory_ProcessNewBeliefEvent` (src/Memory.c 283-383). `addEvent` is the recursive call of line 372; with
`SEMANTIC_INFERENCE_NAL_LEVEL` 6 the second condition of line 337 is true. -/
def Memory_ProcessNewBeliefEvent (n : Narsese) (addEvent : EventRef → ℚ → M Unit) (ref : EventRef) (currentTime : Int)
    (priority : ℚ) (input : Bool) : M Unit := do
  let event ← ref.load
  let eternalInput := input && decide (event.occurrenceTime = OCCURRENCE_ETERNAL)
  let eternal_event ← Event_Eternalized event
  if (← processImplication n ref currentTime eternalInput eternal_event) then
    let event ← ref.load
    if !Narsese_copulaEquals n (event.term.get 0) TEMPORAL_IMPLICATION then
      match (← Memory_Conceptualize n event.term currentTime) with
      | none => pure ()
      | some i =>
        let event ← ref.load
        if (← updateBeliefs n event eternal_event i currentTime priority eternalInput) then
          addEvent (.belief i) priority

/-- The priority of an event to be added (src/Memory.c 391-395). -/
def effectivePriority (event : Event) (priority : ℚ) (input revised : Bool) : R ℚ :=
  if !revised && !input then do
    let w ← fdiv 1 (Arith.log2 (fadd 1 (Term_Complexity event.term : ℚ)))
    .ok (fmul priority w)
  else .ok priority

/-- `Memory_AddEvent` (src/Memory.c 385-433). The first argument is the number of calls of this function the stack has room
for: it calls itself through `Memory_ProcessNewBeliefEvent`. -/
def Memory_AddEvent (n : Narsese) : Nat → EventRef → Int → ℚ → Bool → Bool → Nat → M Unit
  | 0, _, _, _, _, _, _ => throw (.ub "stack overflow")
  | fuel + 1, ref, currentTime, priority, input, revised, layer => do
    let event ← ref.load
    let s ← get
    if s.RESTRICTED_CONCEPT_CREATION && !input && !Narsese_copulaEquals n (event.term.get 0) TEMPORAL_IMPLICATION &&
        (← Memory_FindConceptByTerm event.term).isNone then
      return ()
    let priority ← effectivePriority event priority input revised
    if event.truth.confidence < MIN_CONFIDENCE || priority ≤ 0 then
      return ()
    if event.type = .belief then
      if !Narsese_copulaEquals n (event.term.get 0) TEMPORAL_IMPLICATION &&
          !(Narsese_copulaEquals n (event.term.get 0) HAS_CONTINUOUS_PROPERTY &&
            (Narsese_copulaEquals n (event.term.get 2) SIMILARITY || Narsese_copulaEquals n (event.term.get 2) SEQUENCE)) then
        let _ ← Memory_addCyclingEvent event priority layer
      Memory_ProcessNewBeliefEvent n (fun ref priority => Memory_AddEvent n fuel ref currentTime priority false true 0)
        ref currentTime priority input
    let event ← ref.load
    if event.type = .goal then
      let _ ← Memory_addCyclingEvent event priority layer
      cassert (decide (event.occurrenceTime ≠ OCCURRENCE_ETERNAL)) "Eternal goals are not supported"
    cassert (decide (event.type = .belief) || decide (event.type = .goal)) "Erroneous event type"

/-- `Memory_AddEvent` for an event of the caller (src/Memory.c 385-433). The recursive call adds the revised belief of a
concept; it revises nothing again, as the stamps overlap, unless that concept was recycled meanwhile. The recursion may be
`stack + 1` calls deep; `stack` is any number, so a run of the program of whatever depth is a run of the model. -/
def Memory_AddEvent' (n : Narsese) (event : Event) (currentTime : Int) (priority : ℚ) (input revised : Bool)
    (layer : Nat) : M Unit := do
  let s ← get
  Memory_AddEvent n (s.stack + 1) (.val event) currentTime priority input revised layer

/-- `Memory_AddInputEvent` (src/Memory.c 435-438). -/
def Memory_AddInputEvent (n : Narsese) (event : Event) (currentTime : Int) : M Unit :=
  Memory_AddEvent' n event currentTime 1 true false 0

end

/-- `Memory_ImplicationValid` (src/Memory.c 440-443) in a given state. -/
def Sys.implicationValid (s : Sys) (imp : Implication) : R Bool :=
  match imp.sourceConcept with
  | none => .error (.ub "NULL source concept")
  | some c => .ok (decide (imp.sourceConceptId = (s.concept_storage c).id))

/-- `Memory_ImplicationValid` (src/Memory.c 440-443). -/
def Memory_ImplicationValid (imp : Implication) : M Bool := do
  let s ← get
  s.implicationValid imp

/-- The loop of `Memory_getTemporalLinkTruth` (src/Memory.c 465-475), `k` iterations left. -/
def temporalLinkLoop (t : Table) (precondition postcondition : Term) : Nat → R Truth
  | 0 => .ok ⟨0, 0⟩
  | k + 1 => do
    let imp := t.array (t.itemsAmount - (k + 1))
    cassert (decide (Term_ExtractSubterm imp.term 2 = postcondition)) "Link should not be in this table"
    if Term_ExtractSubterm imp.term 1 = precondition then .ok imp.truth
    else temporalLinkLoop t precondition postcondition k

/-- `Memory_getTemporalLinkTruth` (src/Memory.c 460-478). -/
def Memory_getTemporalLinkTruth (precondition postcondition : Term) : M Truth := do
  match (← Memory_FindConceptByTerm postcondition) with
  | none => pure ⟨0, 0⟩
  | some c =>
    let s ← get
    let t := (s.concept_storage c).precondition_beliefs 0
    temporalLinkLoop t precondition postcondition t.itemsAmount

end ONA
