import Verif.Model.Decision
/-
Model of src/Cycle.c for STAGE 2. Options: `NOP_SUBGOALING`, `DECLARATIVE_IMPLICATIONS_SUBGOALING`,
`DECLARATIVE_IMPLICATIONS_CYCLE_PROCESS`, `ALLOW_CONCURRENT_IMPLICATIONS` and `ATTRIBUTE_TERM_RELATIONS` are true,
`BELIEF_EVENT_SELECTIONS` and `GOAL_EVENT_SELECTIONS` are 1 (src/Config.h 50, 62, 64, 95, 114, 208, 210),
`SEMANTIC_INFERENCE_NAL_LEVEL` is 6. Metrics and prints are not modelled; the loops run sequentially.
-/
namespace ONA

/-- `Cycle_INIT` (src/Cycle.c 48-53). -/
def Cycle_INIT : M Unit :=
  modify fun s => { s with conceptProcessID := 0, conceptProcessID2 := 0, conceptProcessID3 := 0 }

/-! ### RELATED_CONCEPTS_FOREACH -/

section
variable {σ : Type}

/-- The body of the `while` loop of `RELATED_CONCEPTS_FOREACH` (src/Cycle.c 38-44) for an element with concept `c`.
`body` returns `false` to leave all loops (`goto`), and the new local variables. -/
def visitConcept (body : Nat → σ → M (Bool × σ)) (c : Option Nat) (st : σ) : M (Bool × σ) :=
  match c with
  | none => pure (true, st)
  | some c => do
    let s ← get
    if (s.concept_storage c).processID ≠ s.conceptProcessID then
      modifyConcept c fun c => { c with processID := s.conceptProcessID }
      body c st
    else pure (true, st)

/-- The `while` loop of `RELATED_CONCEPTS_FOREACH` (src/Cycle.c 36-45) from the chain element `next` on. The next
element is read before the body, in the state at that time. The body may change the chains, so the number of
iterations has no bound evident from the code; `fuel` bounds it. -/
def visitChain (body : Nat → σ → M (Bool × σ)) : Nat → Option Nat → σ → M (Bool × σ)
  | _, none, st => pure (true, st)
  | 0, some _, _ => throw .fuel
  | fuel + 1, some e, st => do
    let s ← get
    let element := s.index.conceptChainElementStorage e
    let r ← visitConcept body element.c st
    if r.1 then visitChain body fuel element.next r.2 else pure r

/-- The `for` loop of `RELATED_CONCEPTS_FOREACH` (src/Cycle.c 32-46) over the given indices. -/
def visitRelated (fuel : Nat) (term : Term) (body : Nat → σ → M (Bool × σ)) : List Nat → σ → M σ
  | [], st => pure st
  | i :: rest, st => do
    let c ← Memory_FindConceptByTerm term
    let s ← get
    let next := InvertedAtomIndex_GetConceptChain s.index (term.get i)
    let r ← visitConcept body c st
    if r.1 then
      let r ← visitChain body fuel next r.2
      if r.1 then visitRelated fuel term body rest r.2 else pure r.2
    else pure r.2

/-- `RELATED_CONCEPTS_FOREACH` (src/Cycle.c 31-46). -/
def relatedConcepts (fuel : Nat) (term : Term) (body : Nat → σ → M (Bool × σ)) (st : σ) : M σ :=
  visitRelated fuel term body (List.range UNIFICATION_DEPTH) st

end

/-- `conceptProcessID++`. -/
def nextProcessID : M Unit := modify fun s => { s with conceptProcessID := s.conceptProcessID + 1 }

section
variable [Arith]

/-- src/Config.h 98 -/
def MAX_SEQUENCE_LEN : Nat := 3
/-- src/Config.h 104 -/
def MAX_COMPOUND_OP_LEN : Nat := 1

/-! ### Sensorimotor events -/

/-- `Cycle_ActivateSensorimotorConcept` (src/Cycle.c 56-79). -/
def Cycle_ActivateSensorimotorConcept (n : Narsese) (c : Nat) (e : Event) (currentTime : Int) : M Decision := do
  modifyConcept c fun c =>
    { c with lastSelectionTime := currentTime, usage := Usage_use c.usage currentTime false }
  if e.type = .belief then
    modifyConcept c fun c =>
      if c.belief_spike.type = .deleted || decide (e.occurrenceTime > c.belief_spike.occurrenceTime)
      then { c with belief_spike := e } else c
    pure Decision.zero
  else
    modifyConcept c fun c =>
      if c.goal_spike.type = .deleted || decide (e.occurrenceTime > c.goal_spike.occurrenceTime)
      then { c with goal_spike := e } else c
    Decision_Suggest n c e currentTime

/-- The body of the loop of `Cycle_ProcessSensorimotorEvent` (src/Cycle.c 101-129). -/
def processRelatedConcept (n : Narsese) (e : Event) (currentTime : Int) (c : Nat) (best_decision : Decision) :
    M (Bool × Decision) := do
  let ecp := { e with processed := true, creationTime := currentTime }
  let e_hasVariable := Variable_hasVariable n e.term true true true
  let e_hasQueryVariable := Variable_hasVariable n e.term false false true
  let best_decision ← (if !e_hasVariable || e_hasQueryVariable then do
      let s ← get
      let subs ← Variable_Unify n (s.concept_storage c).term e.term
      if subs.success then
        let decision ← Cycle_ActivateSensorimotorConcept n c ecp currentTime
        pure (Decision_BetterDecision best_decision decision)
      else pure best_decision
    else pure best_decision : M Decision)
  if e_hasVariable then
    let s ← get
    let subs ← Variable_Unify n e.term (s.concept_storage c).term
    if subs.success then
      let r ← Variable_ApplySubstitute n e.term subs
      if r.2 then
        let decision ← Cycle_ActivateSensorimotorConcept n c { ecp with term := r.1 } currentTime
        pure (true, Decision_BetterDecision best_decision decision)
      else pure (true, best_decision)
    else pure (true, best_decision)
  else pure (true, best_decision)

/-- `Cycle_ProcessSensorimotorEvent` (src/Cycle.c 82-131). -/
def Cycle_ProcessSensorimotorEvent (n : Narsese) (fuel : Nat) (e : Event) (currentTime : Int) : M Decision := do
  cassert (decide (e.occurrenceTime ≠ OCCURRENCE_ETERNAL)) "Cycle_ProcessSensorimotorEvent triggered by eternal event"
  match (← Memory_Conceptualize n e.term currentTime) with
  | none => pure Decision.zero
  | some c =>
    if Narsese_copulaEquals n (e.term.get 0) SEQUENCE && !Variable_hasVariable n e.term true true false then
      modify fun s => { s with occurrenceTimeIndex := s.occurrenceTimeIndex.add c }
    nextProcessID
    relatedConcepts fuel e.term (processRelatedConcept n e currentTime) Decision.zero

/-! ### Selection of events -/

/-- `Cycle_PopEvents` for beliefs (src/Cycle.c 133-151, 810). -/
def popBeliefEvents : M Unit := do
  let s ← get
  let r ← s.cycling_belief_events.popMax
  match r.1 with
  | none =>
    cassert (decide (r.2.itemsAmount = 0)) "No item was popped, only acceptable reason is when it's empty"
    set { s with cycling_belief_events := r.2, beliefsSelectedCnt := 0 }
  | some item =>
    set { s with
      cycling_belief_events := r.2
      selectedBeliefsPriority := upd s.selectedBeliefsPriority 0 item.priority
      selectedBeliefs := upd s.selectedBeliefs 0 (s.cycling_belief_event_storage item.address)
      beliefsSelectedCnt := 1 }

/-- `Cycle_PopEvents` for the goals of a layer (src/Cycle.c 133-151, 822). -/
def popGoalEvents (layer : Nat) : M Unit := do
  let s ← get
  let r ← (s.cycling_goal_events layer).popMax
  match r.1 with
  | none =>
    cassert (decide (r.2.itemsAmount = 0)) "No item was popped, only acceptable reason is when it's empty"
    set { s with cycling_goal_events := upd s.cycling_goal_events layer r.2, goalsSelectedCnt := 0 }
  | some item =>
    set { s with
      cycling_goal_events := upd s.cycling_goal_events layer r.2
      selectedGoalsPriority := upd s.selectedGoalsPriority 0 item.priority
      selectedGoals := upd s.selectedGoals 0 (s.cycling_goal_event_storage layer item.address)
      goalsSelectedCnt := 1 }

/-! ### Goals -/

/-- The components of a left-nested sequence (src/Cycle.c 164-173), the last one first; `i` of them are known. The array
has `MAX_SEQUENCE_LEN + 1` elements: a sequence of 5 elements passes the assertion of line 169 and is written past the
array in line 173. -/
def goalComponents (n : Narsese) : Nat → Nat → Term → List Term → R (List Term)
  | 0, _, _, _ => .error .fuel
  | fuel + 1, i, cur_seq, components =>
    if Narsese_copulaEquals n (cur_seq.get 0) SEQUENCE then do
      cassert (decide (i ≤ MAX_SEQUENCE_LEN)) "The sequence was longer than MAX_SEQUENCE_LEN"
      goalComponents n fuel (i + 1) (Term_ExtractSubterm cur_seq 1) (components ++ [Term_ExtractSubterm cur_seq 2])
    else if i ≤ MAX_SEQUENCE_LEN then .ok (components ++ [cur_seq])
    else .error (.ub "componentGoalsTerm written past the end")

/-- Applying a substitution to the components before `j`, in the order of the code (src/Cycle.c 208-217): whether all
succeed. -/
def substitutable (n : Narsese) (components : List Term) (subs : Substitution) : Nat → R Bool
  | 0 => .ok true
  | j + 1 => do
    let r ← Variable_ApplySubstitute n (components.getD j Term.zero) subs
    if r.2 then substitutable n components subs j else .ok false

/-- The belief event of highest expectation for a component (src/Cycle.c 186-236). The local variables are `best_exp`,
and `best_c` with `best_subs`. -/
def componentBelief (n : Narsese) (components : List Term) (j : Nat) (lastComponentOccurrenceTime : Int) (c : Nat)
    (best : ℚ × Option (Nat × Substitution)) : M (Bool × (ℚ × Option (Nat × Substitution))) := do
  let s ← get
  let concept := s.concept_storage c
  let componentGoal := components.getD j Term.zero
  let goOn := Variable_hasVariable n componentGoal true true true
  if !Variable_hasVariable n concept.term true true true then
    let subs ← Variable_Unify n componentGoal concept.term
    if subs.success && concept.belief_spike.type ≠ .deleted then
      if concept.belief_spike.occurrenceTime < lastComponentOccurrenceTime then pure (true, best)
      else
        let expectation := Truth_Expectation
          (Truth_Projection concept.belief_spike.truth concept.belief_spike.occurrenceTime s.currentTime)
        if expectation < s.CONDITION_THRESHOLD then pure (true, best)
        else if (← substitutable n components subs j) && decide (expectation > best.1) then
          pure (goOn, (expectation, some (c, subs)))
        else pure (goOn, best)
    else pure (goOn, best)
  else pure (goOn, best)

/-- Applying the substitution to the components before `j` (src/Cycle.c 248-253). -/
def substituteComponents (n : Narsese) (subs : Substitution) : Nat → List Term → R (List Term)
  | 0, components => .ok components
  | j + 1, components => do
    let r ← Variable_ApplySubstitute n (components.getD j Term.zero) subs
    cassert r.2 "Cycle_GoalSequenceDecomposition: The substitution succeeded before but not now!"
    substituteComponents n subs j (components.set j r.1)

/-- The loop of `Cycle_GoalSequenceDecomposition` (src/Cycle.c 178-259), `j` counted from 1: `none` if all components are
fulfilled, otherwise the first component which is not, the components and the goal built so far. -/
def decompositionLoop (n : Narsese) (fuel : Nat) : Nat → List Term → Int → Event → M (Option (Nat × List Term × Event))
  | 0, _, _, _ => pure none
  | j + 1, components, lastComponentOccurrenceTime, newGoal => do
    nextProcessID
    let best ← relatedConcepts fuel (components.getD j Term.zero)
      (componentBelief n components j lastComponentOccurrenceTime) (0, none)
    match best.2 with
    | none => pure (some (j, components, newGoal))
    | some (c, subs) =>
      if j = 0 then pure none
      else
        let components ← substituteComponents n subs j components
        let s ← get
        let spike := (s.concept_storage c).belief_spike
        let newGoal := Inference_GoalSequenceDeduction newGoal spike s.currentTime
        decompositionLoop n fuel j components spike.occurrenceTime
          { newGoal with term := components.getD (j - 1) Term.zero }

/-- `Cycle_GoalSequenceDecomposition` (src/Cycle.c 157-267). It uses the global `currentTime`. -/
def Cycle_GoalSequenceDecomposition (n : Narsese) (fuel : Nat) (selectedGoal : Event) (selectedGoalPriority : ℚ)
    (layer : Nat) : M Bool := do
  if !Narsese_copulaEquals n (selectedGoal.term.get 0) SEQUENCE then pure false
  else
    let components ← goalComponents n termDepth 0 selectedGoal.term []
    let i := components.length - 1
    let s ← get
    match (← decompositionLoop n fuel (i + 1) components (-1) (Inference_EventUpdate selectedGoal s.currentTime)) with
    | none => pure true
    | some (j, components, newGoal) =>
      let newGoal := if j = i then
          { newGoal with term := components.getD i Term.zero
                         truth := Truth_StructuralDeduction newGoal.truth newGoal.truth }
        else newGoal
      Memory_AddEvent' n newGoal s.currentTime (fmul selectedGoalPriority (Truth_Expectation newGoal.truth)) false false
        layer
      pure true

/-- A table of links of a concept. -/
inductive LinkTable where
  | op (opi : Nat)
  | declarative

/-- The table. -/
def LinkTable.get : LinkTable → Concept → Table
  | .op opi, c => c.precondition_beliefs opi
  | .declarative, c => c.implication_links

/-- Assignment to the table. -/
def LinkTable.set (t : Table) : LinkTable → Concept → Concept
  | .op opi, c => { c with precondition_beliefs := upd c.precondition_beliefs opi t }
  | .declarative, c => { c with implication_links := t }

/-- A link in the derivation of subgoals (src/Cycle.c 320-333, 348-361). -/
def deriveSubgoal (n : Narsese) (imp : Implication) (goal_spike : Event) (currentTime : Int) (priority : ℚ) (layer : Nat) :
    M Unit := do
  let subs ← Variable_Unify n (Term_ExtractSubterm imp.term 2) goal_spike.term
  if subs.success then
    let r ← Variable_ApplySubstitute n imp.term subs
    if r.2 then
      let newGoal ← Inference_GoalDeduction n goal_spike { imp with term := r.1 } currentTime
      let newGoalUpdated := Inference_EventUpdate newGoal currentTime
      Memory_AddEvent' n newGoalUpdated currentTime (fmul priority (Truth_Expectation newGoalUpdated.truth)) false false
        layer

/-- The loop over a table of links (src/Cycle.c 311-335, 339-363): invalid links are removed. -/
def subgoalsOfTable (n : Narsese) (c : Nat) (table : LinkTable) (currentTime : Int) (priority : ℚ) (layer : Nat) :
    M Unit := do
  let _ ← loopM (fun j => do
    let s ← get
    let concept := s.concept_storage c
    let t := table.get concept
    if j < t.itemsAmount then
      if (← s.implicationValid (t.array j)) then
        deriveSubgoal n (t.array j) concept.goal_spike currentTime priority layer
        pure (true, j + 1)
      else
        modifyConcept c (table.set (Table_Remove t j))
        pure (true, j)
    else pure (false, j)) (TABLE_SIZE + 1) 0

/-- The tables visited (src/Cycle.c 309, 337). -/
def subgoalTables : List LinkTable := (List.range (OPERATIONS_MAX + 1)).map .op ++ [.declarative]

/-- The body of the subgoaling loop (src/Cycle.c 304-366). -/
def deriveSubgoals (n : Narsese) (goal : Event) (priority : ℚ) (currentTime : Int) (layer : Nat) (c : Nat) (_ : Unit) :
    M (Bool × Unit) := do
  let s ← get
  let concept := s.concept_storage c
  let subs ← Variable_Unify n concept.term goal.term
  if subs.success then
    let r ← Inference_RevisionAndChoice n concept.goal_spike goal
    modifyConcept c fun c => { c with goal_spike := r.1 }
    subgoalTables.forM fun table => subgoalsOfTable n c table currentTime priority layer
  pure (true, ())

/-- Processing of the selected goals (src/Cycle.c 274-287). -/
def processSelectedGoals (n : Narsese) (fuel : Nat) (currentTime : Int) (layer : Nat) : List Nat → Decision → M Decision
  | [], best_decision => pure best_decision
  | i :: rest, best_decision => do
    let s ← get
    let goal := s.selectedGoals i
    if (← Cycle_GoalSequenceDecomposition n fuel goal (s.selectedGoalsPriority i) layer) then
      processSelectedGoals n fuel currentTime layer rest best_decision
    else
      let decision ← Cycle_ProcessSensorimotorEvent n fuel goal currentTime
      processSelectedGoals n fuel currentTime layer rest (Decision_BetterDecision best_decision decision)

/-- `Cycle_ProcessAndInferGoalEvents` (src/Cycle.c 270-368). -/
def Cycle_ProcessAndInferGoalEvents (n : Narsese) (fuel : Nat) (addInputBelief : Term → M Unit) (currentTime : Int)
    (layer : Nat) : M Unit := do
  let s ← get
  let best_decision ← processSelectedGoals n fuel currentTime layer (List.range s.goalsSelectedCnt) Decision.zero
  if best_decision.execute && decide (best_decision.operationID > 0) then
    modify fun s => { s with
      cycling_goal_events := fun layer => PriorityQueue.init (s.cycling_goal_events layer).items
        (s.cycling_goal_events layer).maxElements
      goalsSelectedCnt := 0 }
    Decision_Execute n addInputBelief currentTime best_decision
  if !best_decision.execute then
    let s ← get
    (List.range s.goalsSelectedCnt).forM fun i => do
      let s ← get
      nextProcessID
      relatedConcepts fuel (s.selectedGoals i).term
        (deriveSubgoals n (s.selectedGoals i) (s.selectedGoalsPriority i) currentTime layer) ()

/-! ### Beliefs -/

/-- `Cycle_ReinforceLink` (src/Cycle.c 371-398); the result is not used by the callers. It uses the global
`currentTime`. -/
def Cycle_ReinforceLink (n : Narsese) (a b : Event) : M Unit := do
  if a.type = .belief && b.type = .belief then
    let A ← Memory_FindConceptByTerm (Narsese_GetPreconditionWithoutOp n termDepth a.term)
    let B ← Memory_FindConceptByTerm b.term
    if A.isSome && B.isSome && A ≠ B && !Stamp_checkOverlap a.stamp b.stamp then
      match (← Inference_BeliefInduction a b) with
      | none => pure ()
      | some imp =>
        if imp.truth.confidence ≥ MIN_CONFIDENCE then
          let s ← get
          NAL_DerivedEvent n
            { conclusionOccurrence := s.currentTime, conclusionTruth := imp.truth, stamp := imp.stamp
              currentTime := s.currentTime, parentPriority := 1, conceptPriority := 1
              occurrenceTimeOffset := imp.occurrenceTimeOffset, validation := none } imp.term true false

/-- The element of the occurrence time index read by the loops of `Cycle_ProcessBeliefEvents`. -/
def newestConcept (j : Nat) : M Nat := do
  let s ← get
  match (← s.occurrenceTimeIndex.getKthNewestElement j) with
  | none => throw (.ub "NULL concept")
  | some c => pure c

/-- `labs(a - b) < PRECONDITION_CONSEQUENCE_DISTANCE`. -/
def near (a b : Int) : Bool := decide (((a - b).natAbs : Int) < EVENT_BELIEF_DISTANCE)

/-- `labs(a - b) <= MAX_SEQUENCE_TIMEDIFF`. -/
def nearSequence (a b : Int) : Bool := decide (((a - b).natAbs : Int) ≤ EVENT_BELIEF_DISTANCE)

/-- Whether the term is not an equivalence or implication. -/
def notHigherOrder (n : Narsese) (term : Term) : Bool :=
  !Narsese_copulaEquals n (term.get 0) EQUIVALENCE && !Narsese_copulaEquals n (term.get 0) IMPLICATION

/-- A precondition found before an operation (src/Cycle.c 429-449). -/
def conditionOperation (n : Narsese) (opc prec : Nat) (postcondition : Event) (currentTime : Int) : M Unit := do
  let s ← get
  let op := s.concept_storage opc
  let p := s.concept_storage prec
  if p.belief_spike.type ≠ .deleted && p.belief_spike.creationTime < currentTime &&
      p.belief_spike.occurrenceTime < op.belief_spike.occurrenceTime &&
      near p.belief_spike.occurrenceTime postcondition.occurrenceTime &&
      near p.lastSelectionTime postcondition.occurrenceTime && notHigherOrder n p.belief_spike.term &&
      !Stamp_checkOverlap p.belief_spike.stamp postcondition.stamp && s.operationID n p.term = 0 then
    match (← Inference_BeliefIntersection p.belief_spike op.belief_spike) with
    | none => pure ()
    | some seq_op_cur =>
      if seq_op_cur.truth.confidence ≥ MIN_CONFIDENCE then
        let r := Narsese_OperationSequenceAppendLeftNested n termDepth p.belief_spike.term op.belief_spike.term
        if r.1 then Cycle_ReinforceLink n { seq_op_cur with term := r.2 } postcondition

/-- The loop over preconditions (src/Cycle.c 426-450); the index has at most `OCCURRENCE_TIME_INDEX_SIZE` entries. -/
def preconditionLoop (n : Narsese) (opc : Nat) (opc_id : Int) (postcondition : Event) (currentTime : Int) : M Unit := do
  let _ ← loopM (fun i => do
    let s ← get
    if (s.concept_storage opc).id = opc_id && decide (i < s.occurrenceTimeIndex.itemsAmount) then
      let prec ← newestConcept i
      let wasProcessed3 := decide ((s.concept_storage prec).processID3 = s.conceptProcessID3)
      modifyConcept prec fun c => { c with processID3 := s.conceptProcessID3 }
      if !wasProcessed3 then conditionOperation n opc prec postcondition currentTime
      pure (true, i + 1)
    else pure (false, i)) (OCCURRENCE_TIME_INDEX_SIZE + 1) 0

/-- The loop over operations (src/Cycle.c 416-453), for `op_id` 0. -/
def operationLoop (n : Narsese) (postcondition : Event) (currentTime : Int) : M Unit := do
  let _ ← loopM (fun j => do
    let s ← get
    if j < s.occurrenceTimeIndex.itemsAmount then
      let opc ← newestConcept j
      let concept := s.concept_storage opc
      let wasProcessed2 := decide (concept.processID2 = s.conceptProcessID2)
      modifyConcept opc fun c => { c with processID2 := s.conceptProcessID2 }
      if !wasProcessed2 && concept.belief_spike.type ≠ .deleted && concept.belief_spike.creationTime < currentTime &&
          concept.belief_spike.occurrenceTime < postcondition.occurrenceTime &&
          near concept.belief_spike.occurrenceTime postcondition.occurrenceTime &&
          near concept.lastSelectionTime postcondition.occurrenceTime && s.operationID n concept.term ≠ 0 then
        modify fun s => { s with conceptProcessID3 := s.conceptProcessID3 + 1 }
        preconditionLoop n opc concept.id postcondition currentTime
      pure (true, j + 1)
    else pure (false, j)) (OCCURRENCE_TIME_INDEX_SIZE + 1) 0

/-- `sequence_len` (src/Cycle.c 482-489). -/
def leftSequenceLength (n : Narsese) (term : Term) : Nat :=
  if !Narsese_copulaEquals n (term.get 0) SEQUENCE then 0
  else if !Narsese_copulaEquals n (term.get 1) SEQUENCE then 1
  else if !Narsese_copulaEquals n (term.get 3) SEQUENCE then 2
  else 3

/-- `Narsese_copulaEquals(a, INHERITANCE) || Narsese_copulaEquals(a, HAS_CONTINUOUS_PROPERTY)`. -/
def isPropertyCopula (n : Narsese) (a : Atom) : Bool :=
  Narsese_copulaEquals n a INHERITANCE || Narsese_copulaEquals n a HAS_CONTINUOUS_PROPERTY

/-- The two last elements of a longer sequence with the same attribute, and the rest (src/Cycle.c 496-520). -/
def attributePair (n : Narsese) (seq : Term) : Term × Term :=
  if Narsese_copulaEquals n (seq.get 0) SEQUENCE && Narsese_copulaEquals n (seq.get 1) SEQUENCE &&
      isPropertyCopula n (seq.get 2) && isPropertyCopula n (seq.get 4) &&
      Narsese_copulaEquals n (seq.get 5) PRODUCT && Narsese_copulaEquals n (seq.get 9) PRODUCT &&
      decide (Term_ExtractSubterm seq 6 = Term_ExtractSubterm seq 10) then
    let t := Term.zero.put 0 (copulaAtom SEQUENCE)
    let t := (Term_OverrideSubterm t 1 (Term_ExtractSubterm seq 4)).2
    let t := (Term_OverrideSubterm t 2 (Term_ExtractSubterm seq 2)).2
    (t, Term_ExtractSubterm seq 3)
  else (seq, Term.zero)

/-- The relation term (src/Cycle.c 549-584) between two locations with attribute values `v1`, `v2`. -/
def attributeRelationTerm (n : Narsese) (seq rest : Term) (v1 v2 : ℚ) : Term :=
  let relation := if v1 > v2 ∨ v1 < v2 then copulaAtom SEQUENCE else copulaAtom SIMILARITY
  let LOC1 := Term_ExtractSubterm seq 7
  let LOC2 := Term_ExtractSubterm seq 11
  let ATTR := Term_ExtractSubterm seq 4
  let t := Term.zero.put 0 (if Narsese_copulaEquals n (seq.get 1) INHERITANCE then copulaAtom INHERITANCE
    else copulaAtom HAS_CONTINUOUS_PROPERTY)
  let t := (t.put 1 (copulaAtom PRODUCT)).put 2 relation
  let t := (Term_OverrideSubterm t 3 (if v1 < v2 then LOC2 else LOC1)).2
  let t := (Term_OverrideSubterm t 4 (if v1 < v2 then LOC1 else LOC2)).2
  let t := (Term_OverrideSubterm t 5 ATTR).2
  let t := (Term_OverrideSubterm t 6 ATTR).2
  let t := t.put 6 (copulaAtom SET_TERMINATOR)
  if rest.get 0 = 0 then t
  else
    let w := Term.zero.put 0 (copulaAtom SEQUENCE)
    let w := (Term_OverrideSubterm w 1 rest).2
    (Term_OverrideSubterm w 2 t).2

/-- The relation between the attribute values of the last two elements of a sequence (src/Cycle.c 494-588), if there is
one. -/
def attributeRelation (n : Narsese) (seq : Term) : R (Option Term) :=
  let p := attributePair n seq
  let t := p.1
  if Narsese_copulaEquals n (t.get 0) SEQUENCE && isPropertyCopula n (t.get 1) && isPropertyCopula n (t.get 2) &&
      Narsese_copulaEquals n (t.get 3) PRODUCT && Narsese_copulaEquals n (t.get 5) PRODUCT &&
      decide (Term_ExtractSubterm t 4 = Term_ExtractSubterm t 6) then do
    let h1 ← Narsese_hasAtomValue n (t.get 8)
    if h1 then do
      let h2 ← Narsese_hasAtomValue n (t.get 12)
      if h2 then do
        let v1 ← Narsese_getAtomValue n (t.get 8)
        let v2 ← Narsese_getAtomValue n (t.get 12)
        .ok (some (attributeRelationTerm n t p.2 v1 v2))
      else .ok none
    else .ok none
  else .ok none

/-- Building a sequence (src/Cycle.c 490-594). -/
def buildSequence (n : Narsese) (fuel : Nat) (seq : Event) (op_id : Nat) (is_op_seq : Bool) (priority : ℚ)
    (currentTime : Int) : M Unit := do
  let _ ← Cycle_ProcessSensorimotorEvent n fuel seq currentTime
  match (← attributeRelation n seq.term) with
  | none => pure ()
  | some t => Memory_AddEvent' n { seq with term := t } currentTime 1 false false 0
  if is_op_seq && decide (priority ≥ 1) then
    Decision_Anticipate n op_id seq.term false currentTime

/-- An event before the selected one (src/Cycle.c 460-597). -/
def sequenceWith (n : Narsese) (fuel : Nat) (c : Nat) (postcondition : Event) (op_id : Nat) (priority : ℚ)
    (currentTime : Int) : M Unit := do
  let s ← get
  let spike := (s.concept_storage c).belief_spike
  if spike.type ≠ .deleted && spike.creationTime ≤ currentTime &&
      nearSequence spike.occurrenceTime postcondition.occurrenceTime &&
      nearSequence (s.concept_storage c).lastSelectionTime postcondition.occurrenceTime &&
      spike.occurrenceTime ≤ postcondition.occurrenceTime && notHigherOrder n spike.term then
    let op_id2 := s.operationID n spike.term
    let is_op_seq := decide (op_id ≠ 0) && decide (op_id2 ≠ 0)
    let is_cond_seq := decide (op_id = 0) && decide (op_id2 = 0)
    if (is_cond_seq || is_op_seq) && !Stamp_checkOverlap spike.stamp postcondition.stamp then
      match (← Inference_BeliefIntersection spike postcondition) with
      | none => pure ()
      | some seq =>
        if seq.truth.confidence ≥ MIN_CONFIDENCE then
          if is_cond_seq then
            Cycle_ReinforceLink n spike postcondition
            let spike := ((← get).concept_storage c).belief_spike
            if spike.occurrenceTime = postcondition.occurrenceTime then
              Cycle_ReinforceLink n postcondition spike
          let sequence_len := leftSequenceLength n seq.term
          let spike := ((← get).concept_storage c).belief_spike
          if postcondition.occurrenceTime ≥ spike.occurrenceTime &&
              ((is_cond_seq && sequence_len < MAX_SEQUENCE_LEN) || (is_op_seq && sequence_len < MAX_COMPOUND_OP_LEN)) then
            buildSequence n fuel seq op_id is_op_seq priority currentTime

/-- The loop over events before the selected one (src/Cycle.c 454-598). -/
def sequenceLoop (n : Narsese) (fuel : Nat) (postcondition : Event) (op_id : Nat) (priority : ℚ) (currentTime : Int) :
    M Unit := do
  let _ ← loopM (fun i => do
    let s ← get
    if i < s.occurrenceTimeIndex.itemsAmount then
      let c ← newestConcept i
      let wasProcessed := decide ((s.concept_storage c).processID2 = s.conceptProcessID2)
      modifyConcept c fun c => { c with processID2 := s.conceptProcessID2 }
      if !wasProcessed then sequenceWith n fuel c postcondition op_id priority currentTime
      pure (true, i + 1)
    else pure (false, i)) (OCCURRENCE_TIME_INDEX_SIZE + 1) 0

/-- `conceptProcessID2++`. -/
def nextProcessID2 : M Unit := modify fun s => { s with conceptProcessID2 := s.conceptProcessID2 + 1 }

/-- The body of `Cycle_ProcessBeliefEvents` for a selected event (src/Cycle.c 404-605). -/
def processBeliefEvent (n : Narsese) (fuel : Nat) (toProcess : Event) (priority : ℚ) (currentTime : Int) : M Unit := do
  let isContinuousPropertyStatement := Narsese_copulaEquals n (toProcess.term.get 0) HAS_CONTINUOUS_PROPERTY &&
    !Narsese_copulaEquals n (toProcess.term.get 1) PRODUCT
  if !isContinuousPropertyStatement && !toProcess.processed && toProcess.type ≠ .deleted &&
      toProcess.occurrenceTime ≠ OCCURRENCE_ETERNAL && currentTime - toProcess.occurrenceTime < EVENT_BELIEF_DISTANCE then
    cassert (decide (toProcess.type = .belief)) "A different event type made it into belief events!"
    let _ ← Cycle_ProcessSensorimotorEvent n fuel toProcess currentTime
    let op_id ← Memory_getOperationID n toProcess.term
    let op_term := Narsese_getOperationTerm n termDepth toProcess.term
    nextProcessID2
    if op_id = 0 then operationLoop n toProcess currentTime
    nextProcessID2
    sequenceLoop n fuel toProcess op_id priority currentTime
    if priority ≥ 1 then Decision_Anticipate n op_id op_term false currentTime

/-- `Cycle_ProcessBeliefEvents` (src/Cycle.c 400-605). -/
def Cycle_ProcessBeliefEvents (n : Narsese) (fuel : Nat) (currentTime : Int) : M Unit := do
  let s ← get
  (List.range s.beliefsSelectedCnt).forM fun h =>
    processBeliefEvent n fuel (s.selectedBeliefs h) (s.selectedBeliefsPriority h) currentTime

/-! ### Inference -/

/-- `NAL_DerivedEvent` of a substituted term (src/Cycle.c 621-631, 664-673, 682-690). -/
def deriveSubstituted (n : Narsese) (d : Derivation) (term : Term) (subs : Substitution) (truthOf : R Truth) : M Unit := do
  let r ← Variable_ApplySubstitute n term subs
  let truth ← truthOf
  if r.2 then NAL_DerivedEvent n { d with conclusionTruth := truth } r.1 false false

/-- Deduction with a remaining condition (src/Cycle.c 633-661). -/
def remainingCondition (n : Narsese) (term1 : Term) (truth1 truth2 : Truth) (d : Derivation)
    (impl_subject impl_predicate : Term) : M Unit := do
  let left := Term_ExtractSubterm impl_subject 1
  let right := Term_ExtractSubterm impl_subject 2
  let subs1 ← Variable_Unify n left term1
  let r ← (if subs1.success then .ok (subs1, right) else do
    let subs2 ← Variable_Unify n right term1
    .ok (subs2, left) : R (Substitution × Term))
  if r.1.success then
    let c := buildCompound (copulaAtom IMPLICATION) r.2 impl_predicate
    if c.1 then deriveSubstituted n d c.2 r.1 (.ok (Truth_Deduction truth2 truth1))

/-- `Cycle_SpecialInferences` (src/Cycle.c 611-693). -/
def Cycle_SpecialInferences (n : Narsese) (term1 term2 : Term) (truth1 truth2 : Truth) (d : Derivation) : M Unit := do
  let IsImpl := Narsese_copulaEquals n (term2.get 0) IMPLICATION
  if IsImpl || Narsese_copulaEquals n (term2.get 0) EQUIVALENCE then
    let impl_subject := Term_ExtractSubterm term2 1
    let impl_predicate := Term_ExtractSubterm term2 2
    let subject_subs ← Variable_Unify n impl_subject term1
    if subject_subs.success then
      deriveSubstituted n d impl_predicate subject_subs
        (.ok (if IsImpl then Truth_Deduction truth2 truth1 else Truth_Analogy truth2 truth1))
    if IsImpl && Narsese_copulaEquals n (impl_subject.get 0) CONJUNCTION then
      remainingCondition n term1 truth1 truth2 d impl_subject impl_predicate
    let predicate_subs ← Variable_Unify n impl_predicate term1
    if predicate_subs.success then
      deriveSubstituted n d impl_subject predicate_subs
        (if IsImpl then Truth_Abduction truth2 truth1 else .ok (Truth_Analogy truth2 truth1))
  if Narsese_copulaEquals n (term2.get 0) CONJUNCTION then
    let conj_subject := Term_ExtractSubterm term2 1
    let conj_predicate := Term_ExtractSubterm term2 2
    let subject_subs ← Variable_Unify n conj_subject term1
    if subject_subs.success then
      deriveSubstituted n d conj_predicate subject_subs (Truth_AnonymousAnalogy truth2 truth1)

/-- src/Config.h 74 -/
def BELIEF_CONCEPT_MATCH_TARGET : Nat := 80

/-- The adjusted threshold (src/Cycle.c 707-714). -/
def adaptedThreshold (threshold : ℚ) (matchedTotal currentTime : Int) : R ℚ :=
  if currentTime = 0 then .error (.ub "division by zero")
  else
    let average := matchedTotal.tdiv currentTime
    let error := fsub (ofLong average) BELIEF_CONCEPT_MATCH_TARGET
    let increment := fmul error (rnd (1 / 1000000))
    .ok (cMIN 1 (cMAX 0 (fadd threshold increment)))

/-- Whether the concept's event is used as belief (src/Cycle.c 737-743): the event projected to the time of `e`. -/
def projectedSpike (e : Event) (concept : Concept) : Option Event :=
  let spike := concept.belief_spike
  if e.occurrenceTime ≠ OCCURRENCE_ETERNAL && spike.type ≠ .deleted && near e.occurrenceTime spike.occurrenceTime then
    some { spike with
      truth := Truth_Projection spike.truth spike.occurrenceTime e.occurrenceTime, occurrenceTime := e.occurrenceTime }
  else none

/-- The belief used for inference with `e` in the present state: `*belief` (src/Cycle.c 733-743). If the event is not
used, this is the eternal belief in the concept cell, which may change during the derivations. -/
def usedBelief (c : Nat) (spike : Option Event) : M Event := do
  match spike with
  | some b => pure b
  | none =>
    let s ← get
    pure (s.concept_storage c).belief

/-- Inference between the selected event and a concept (src/Cycle.c 745-762). -/
def inferWith (n : Narsese) (e : Event) (priority : ℚ) (currentTime : Int) (c : Nat) (validation_cid : Int) : M Unit := do
  let s ← get
  let spike := projectedSpike e (s.concept_storage c)
  let belief ← usedBelief c spike
  if !Stamp_checkOverlap e.stamp belief.stamp then
    modifyConcept c fun c => { c with usage := Usage_use c.usage currentTime false }
    let stamp := Stamp_make e.stamp belief.stamp
    let d (conceptPriority : ℚ) : Derivation :=
      { conclusionOccurrence := e.occurrenceTime, conclusionTruth := ⟨0, 0⟩, stamp := stamp, currentTime := currentTime
        parentPriority := priority, conceptPriority := conceptPriority, occurrenceTimeOffset := e.occurrenceTimeOffset
        validation := some (c, validation_cid) }
    let concept := (← get).concept_storage c
    RuleTable_Apply n e.term concept.term e.truth belief.truth (d concept.priority) true
    let concept := (← get).concept_storage c
    let belief ← usedBelief c spike
    Cycle_SpecialInferences n e.term concept.term e.truth belief.truth (d concept.priority)
    let concept := (← get).concept_storage c
    let belief ← usedBelief c spike
    Cycle_SpecialInferences n concept.term e.term belief.truth e.truth (d concept.priority)

/-- The body of the loop over related concepts in `Cycle_Inference` (src/Cycle.c 721-764). The local variables are
`countConceptsMatchedNew` and `countConceptsMatched`. -/
def inferenceBody (n : Narsese) (e : Event) (priority : ℚ) (threshold : ℚ) (currentTime : Int) (c : Nat)
    (counts : Nat × Nat) : M (Bool × (Nat × Nat)) := do
  let s ← get
  let concept := s.concept_storage c
  if concept.priority < threshold then pure (true, counts)
  else
    set { s with Stats_countConceptsMatchedTotal := s.Stats_countConceptsMatchedTotal + 1 }
    let counts := (counts.1 + 1, counts.2 + 1)
    if concept.belief.type ≠ .deleted && counts.2 ≤ BELIEF_CONCEPT_MATCH_TARGET then
      inferWith n e priority currentTime c concept.id
    pure (true, counts)

/-- One iteration of `for(;;)` (src/Cycle.c 703-772); the loop variable is `countConceptsMatched`. -/
def inferenceRound (n : Narsese) (fuel : Nat) (i : Nat) (currentTime : Int) (countConceptsMatched : Nat) :
    M (Bool × Nat) := do
  let s ← get
  let threshold ← adaptedThreshold s.conceptPriorityThreshold s.Stats_countConceptsMatchedTotal currentTime
  set { s with conceptPriorityThreshold := threshold }
  let e := s.selectedBeliefs i
  let priority := s.selectedBeliefsPriority i
  RuleTable_Apply n e.term Term.zero e.truth ⟨0, 0⟩
    { conclusionOccurrence := e.occurrenceTime, conclusionTruth := ⟨0, 0⟩, stamp := e.stamp, currentTime := currentTime
      parentPriority := priority, conceptPriority := 1, occurrenceTimeOffset := 0, validation := none } false
  let counts ← relatedConcepts fuel e.term
    (inferenceBody n e priority s.conceptPriorityThreshold currentTime) (0, countConceptsMatched)
  modify fun s => { s with
    Stats_countConceptsMatchedMax := max s.Stats_countConceptsMatchedMax (counts.2 : Int) }
  pure (!(decide (counts.2 ≥ BELIEF_CONCEPT_MATCH_TARGET) || decide (counts.1 = 0)), counts.2)

/-- `Cycle_Inference` (src/Cycle.c 695-774). Each round but the last matches another concept, up to 80. -/
def Cycle_Inference (n : Narsese) (fuel : Nat) (currentTime : Int) : M Unit := do
  let s ← get
  (List.range s.beliefsSelectedCnt).forM fun i => do
    nextProcessID
    let _ ← loopM (inferenceRound n fuel i currentTime) (BELIEF_CONCEPT_MATCH_TARGET + 1) 0

/-! ### Forgetting -/

/-- Assigning a new priority to the items from `itemsAmount - k` on. -/
def setPriorities {β : Type} (f : Item ℚ β → R ℚ) (q : PriorityQueue ℚ β) : Nat → R (PriorityQueue ℚ β)
  | 0 => .ok q
  | k + 1 => do
    let i := q.itemsAmount - (k + 1)
    let p ← f (q.items i)
    setPriorities f { q with items := upd q.items i ⟨p, (q.items i).address⟩ } k

/-- `items[i].priority *= EVENT_DURABILITY` and the rebuild (src/Cycle.c 779-789, 799-803); 0.9999 is src/Config.h 66. -/
def decayQueue (q : PriorityQueue ℚ Nat) : R (PriorityQueue ℚ Nat) := do
  let q ← setPriorities (fun item => .ok (fmul item.priority (rnd (9999 / 10000)))) q q.itemsAmount
  q.rebuild

/-- Decay of the goal queues of the layers in the list. -/
def decayLayers : List Nat → (Nat → PriorityQueue ℚ Nat) → R (Nat → PriorityQueue ℚ Nat)
  | [], f => .ok f
  | layer :: rest, f => do
    let q ← decayQueue (f layer)
    decayLayers rest (upd f layer q)

/-- `c->priority *= CONCEPT_DURABILITY` (src/Cycle.c 793) for the concepts at the given queue positions; 0.9 is
src/Config.h 68. -/
def decayConcepts (q : PriorityQueue ℚ Nat) : List Nat → (Nat → Concept) → (Nat → Concept)
  | [], f => f
  | i :: rest, f =>
    let cell := (q.items i).address
    let c := f cell
    decayConcepts q rest (upd f cell { c with priority := fmul c.priority (rnd (9 / 10)) })

/-- `Cycle_RelativeForgetting` (src/Cycle.c 776-804). -/
def Cycle_RelativeForgetting (currentTime : Int) : M Unit := do
  let s ← get
  let belief_events ← decayQueue s.cycling_belief_events
  let goal_events ← decayLayers (List.range CYCLING_GOAL_EVENTS_LAYERS) s.cycling_goal_events
  let q ← setPriorities (fun item => Usage_usefulness (s.concept_storage item.address).usage currentTime) s.concepts
    s.concepts.itemsAmount
  let q ← q.rebuild
  set { s with
    cycling_belief_events := belief_events
    cycling_goal_events := goal_events
    concept_storage := decayConcepts s.concepts (List.range s.concepts.itemsAmount) s.concept_storage
    concepts := q }

/-- The goal layers of `Cycle_Perform` (src/Cycle.c 819-825). The arrays have `CYCLING_GOAL_EVENTS_LAYERS` elements. -/
def processGoalLayer (n : Narsese) (fuel : Nat) (addInputBelief : Term → M Unit) (currentTime : Int) (layer : Nat) :
    M Unit := do
  if layer < CYCLING_GOAL_EVENTS_LAYERS then
    popGoalEvents layer
    Cycle_ProcessAndInferGoalEvents n fuel addInputBelief currentTime layer
  else throw (.ub "index of cycling_goal_events out of range")

/-- `Cycle_Perform` (src/Cycle.c 806-830). `addInputBelief` is `NAR_AddInputBelief`, called when an operation is
executed. -/
def Cycle_Perform (n : Narsese) (fuel : Nat) (addInputBelief : Term → M Unit) (currentTime : Int) : M Unit := do
  popBeliefEvents
  Cycle_ProcessBeliefEvents n fuel currentTime
  Decision_Anticipate n 0 Term.zero true currentTime
  (List.range CYCLING_GOAL_EVENTS_LAYERS).forM (processGoalLayer n fuel addInputBelief currentTime)
  Cycle_Inference n fuel currentTime
  Cycle_RelativeForgetting currentTime

end
end ONA
