import Verif.Model.NAL
/-
Model of src/Decision.c. Options: `FUNCTIONAL_EQUIVALENCE`, `FUNCTIONAL_EQUIVALENCE_SPECIFIC`,
`FUNCTIONAL_EQUIVALENCE_LENGTH_RESTRICTION`, `FUNCTIONAL_EQUIVALENCE_NONTEMPORAL_RESTRICTION`,
`FUNCTIONAL_EQUIVALENCE_SIMPLIFY` and `ANTICIPATE_FOR_NOT_EXISTING_SPECIFIC_TEMPORAL_IMPLICATION` are true,
`MAX_COMPOUND_OP_LEN` is 1 (src/Config.h 36, 104, 196-206), so the arrays `operationID`, `op` and `arguments` of a decision
have a single element. Debug and prediction prints are not modelled. Pointers to concepts are cell numbers and are
dereferenced in the state at the time of the access.
-/
namespace ONA

/-- `for`/`while` loop: the body returns whether to go on, and the new loop variables. `fuel` bounds the number of
iterations; see the callers for why their bound is not reached (or is an explicit parameter). -/
def loopM {σ : Type} (body : σ → M (Bool × σ)) : Nat → σ → M σ
  | 0, _ => throw .fuel
  | fuel + 1, st => do
    let r ← body st
    if r.1 then loopM body fuel r.2 else pure r.2

/-- `Decision` (src/Decision.h 68-81). `reason` is the cell of the concept whose `belief_spike` it points to. -/
structure Decision where
  desire : ℚ
  execute : Bool
  operationTerm : Term
  operationID : Nat
  arguments : Term
  missing_specific_implication : Implication
  specific_implication : Implication
  usedContingency : Implication
  reason : Option Nat
  tableIndex : Nat

/-- `(Decision) {0}`. -/
def Decision.zero : Decision :=
  { desire := 0, execute := false, operationTerm := Term.zero, operationID := 0, arguments := Term.zero
    missing_specific_implication := Implication.zero, specific_implication := Implication.zero
    usedContingency := Implication.zero, reason := none, tableIndex := 0 }

/-- `round` of the C library: to the nearest integer, halfway cases away from zero. -/
def cround (x : ℚ) : Int := if x ≥ 0 then (x + 1 / 2).floor else -((-x + 1 / 2).floor)

/-- src/Config.h 56, 72 -/
def EVENT_BELIEF_DISTANCE : Int := 20

/-- `myrand()` (src/Globals.c 57-64). -/
def nextRand : M Nat := do
  let s ← get
  let r := myrand s.next
  set { s with next := r.2 }
  pure r.1

/-- Printing a line on the standard output. -/
def emit (o : Output) : M Unit := modify fun s => { s with output := s.output ++ [o] }

section
variable [Arith]

/-- src/Config.h 52 -/
def SUBSUMPTION_CONFIDENCE_THRESHOLD : ℚ := rnd (5 / 100)
/-- src/Config.h 54 -/
def SUBSUMPTION_FREQUENCY_THRESHOLD : ℚ := 1 / 2
/-- src/Config.h 48 -/
def MOTOR_BABBLING_SUPPRESSION_THRESHOLD : ℚ := rnd (55 / 100)

/-- The result of `Table_AddAndRevise` with the source of the added entry overwritten (src/Decision.c 42-47). -/
def overwriteSource (imp : Implication) (r : Option Nat × Table) : Table :=
  match r.1 with
  | none => r.2
  | some i =>
    let entry := r.2.array i
    let entry := { entry with sourceConcept := imp.sourceConcept, sourceConceptId := imp.sourceConceptId }
    { r.2 with array := upd r.2.array i entry }

/-- The implication recorded by `Decision_AddNegativeConfirmation` (src/Decision.c 36-41). -/
def negativeConfirmation (anticipationConfidence : ℚ) (precondition : Event) (imp : Implication) : R Implication := do
  let TNew : Truth := ⟨0, anticipationConfidence⟩
  let TPast := Truth_Projection precondition.truth 0 (cround imp.occurrenceTimeOffset)
  let induced ← Truth_Induction TNew TPast
  let truth ← Truth_Eternalize induced
  cassert (decide (truth.confidence ≥ 0) && decide (truth.confidence ≤ 1)) "(666) confidence out of bounds"
  .ok { imp with truth := truth, stamp := Stamp.zero }

/-- `Decision_AddNegativeConfirmation` (src/Decision.c 34-48). -/
def Decision_AddNegativeConfirmation (precondition : Event) (imp : Implication) (operationID : Nat) (postc : Nat) :
    M Unit := do
  let s ← get
  let negative_confirmation ← negativeConfirmation s.ANTICIPATION_CONFIDENCE precondition imp
  let r ← Table_AddAndRevise ((s.concept_storage postc).precondition_beliefs operationID) negative_confirmation
  modifyConcept postc fun c =>
    { c with precondition_beliefs := upd c.precondition_beliefs operationID (overwriteSource negative_confirmation r) }

/-- Taking out common parts of two sequences (src/Decision.c 75-107); the recursion descends into subterms. -/
def simplifySequences (n : Narsese) : Nat → Term → Term → Term × Term
  | 0, prec1, prec2 => (prec1, prec2)
  | fuel + 1, prec1, prec2 =>
    if Narsese_copulaEquals n (prec1.get 0) SEQUENCE && Narsese_copulaEquals n (prec2.get 0) SEQUENCE then
      if Term_ExtractSubterm prec1 1 = Term_ExtractSubterm prec2 1 then
        simplifySequences n fuel (Term_ExtractSubterm prec1 2) (Term_ExtractSubterm prec2 2)
      else if Term_ExtractSubterm prec1 2 = Term_ExtractSubterm prec2 2 then
        simplifySequences n fuel (Term_ExtractSubterm prec1 1) (Term_ExtractSubterm prec2 1)
      else (prec1, prec2)
    else (prec1, prec2)

/-- `Truth_Expectation(Memory_getTemporalLinkTruth(a,b)) <= FUNCTIONAL_EQUIVALENCE_NONTEMPORAL_EXP && …(b,a)`
(src/Decision.c 119, 151); the value 0.5 is src/Config.h 204. -/
def noTemporalLink (a b : Term) : M Bool := do
  let t1 ← Memory_getTemporalLinkTruth a b
  if Truth_Expectation t1 ≤ 1 / 2 then
    let t2 ← Memory_getTemporalLinkTruth b a
    pure (decide (Truth_Expectation t2 ≤ 1 / 2))
  else pure false

/-- Adding the implication with introduced variables (src/Decision.c 130-137, 138-145, 162-175), if it is not the term
already added; the result is the term added. In the first use `skip` is the empty term, which is never introduced. -/
def addGeneralized (n : Narsese) (e : Event) (currentTime : Int) (side : Nat) (skip : Term) : M Term := do
  let r ← Variable_IntroduceImplicationVariables2 n e.term true side
  if r.1 && Variable_hasVariable n r.2 true true false && decide (skip ≠ r.2) then
    Memory_AddEvent' n { e with term := r.2 } currentTime 1 false false 0
    pure r.2
  else pure Term.zero

/-- One direction of a functional equivalence (src/Decision.c 113-146, 147-176): the terms of the two generalisations. -/
def addFunctionalImplication (n : Narsese) (a b : Term) (truthOf : R Truth) (stamp : Stamp) (currentTime : Int)
    (skip2 skip3 : Term) : M (Term × Term) := do
  let r := buildCompound (copulaAtom IMPLICATION) a b
  if !r.1 then return (Term.zero, Term.zero)
  if !(← noTemporalLink a b) then return (Term.zero, Term.zero)
  let truth ← truthOf
  let e_imp : Event := { Event.zero with
    term := r.2, type := .belief, truth := truth, stamp := stamp, occurrenceTime := currentTime }
  Memory_AddEvent' n e_imp currentTime 1 false false 0
  let t2 ← addGeneralized n e_imp currentTime 2 skip2
  let t3 ← addGeneralized n e_imp currentTime 1 skip3
  pure (t2, t3)

/-- Comparing the used implication with another link of the goal concept (src/Decision.c 62-178). -/
def compareImplications (n : Narsese) (imp comparedImp : Implication) (currentTime : Int) : M Unit := do
  if Variable_hasVariable n comparedImp.term true true false then return ()
  let cons1 := Term_ExtractSubterm imp.term 2
  let cons2 := Term_ExtractSubterm comparedImp.term 2
  let prec_op1 := Term_ExtractSubterm imp.term 1
  let prec_op2 := Term_ExtractSubterm comparedImp.term 1
  let op1 := Term_ExtractSubterm prec_op1 2
  let op2 := Term_ExtractSubterm prec_op2 2
  let full1 := Narsese_GetPreconditionWithoutOp n termDepth prec_op1
  let full2 := Narsese_GetPreconditionWithoutOp n termDepth prec_op2
  if full1 = full2 then return ()
  let r := simplifySequences n termDepth full1 full2
  let prec1 := r.1
  let prec2 := r.2
  if cons1 = cons2 && op1 = op2 &&
      Narsese_SequenceLength n termDepth prec1 = Narsese_SequenceLength n termDepth prec2 &&
      !Stamp_checkOverlap imp.stamp comparedImp.stamp then
    let equStamp := Stamp_make imp.stamp comparedImp.stamp
    let t ← addFunctionalImplication n prec1 prec2 (Truth_Induction imp.truth comparedImp.truth) equStamp currentTime
      Term.zero Term.zero
    let _ ← addFunctionalImplication n prec2 prec1 (Truth_Abduction imp.truth comparedImp.truth) equStamp currentTime t.1 t.2

/-- First part of `Decision_Execute` (src/Decision.c 53-181): functional equivalence. The loop variable is `j`; the table
has at most `TABLE_SIZE` entries. -/
def functionalEquivalence (n : Narsese) (currentTime : Int) (decision : Decision) : M Unit := do
  let imp := decision.specific_implication
  if imp.term.get 0 ≠ 0 && !Variable_hasVariable n imp.term true true false then
    match (← Memory_FindConceptByTerm (Term_ExtractSubterm imp.term 2)) with
    | none => pure ()
    | some C_goal =>
      let _ ← loopM (fun j => do
        let s ← get
        let t := (s.concept_storage C_goal).precondition_beliefs decision.tableIndex
        if j < t.itemsAmount then
          compareImplications n imp (t.array j) currentTime
          pure (true, j + 1)
        else pure (false, j)) (TABLE_SIZE + 1) 0

/-- The term of an executed operation (src/Decision.c 195-206); `none` is the `return` of line 203. -/
def operationFeedbackTerm (op arguments : Term) : Option Term :=
  if arguments.get 0 ≠ 0 then
    let r := buildCompound (copulaAtom INHERITANCE) arguments op
    if r.1 then some r.2 else none
  else some op

/-- Reading the result of an operation from the standard input (src/Decision.c 213-238); the synchronisation line is
taken to be correct. `none` is `return`. -/
def readOperationResult (n : Narsese) (op : Operation) (arguments : Term) (subs : Substitution) :
    M (Option Substitution) := do
  if op.stdinOutput then
    let s ← get
    match s.stdin with
    | [] => pure none
    | none :: rest => set { s with stdin := rest }; pure none
    | some specific_args :: rest =>
      set { s with stdin := rest }
      let subs ← Variable_Unify n (Term_ExtractSubterm arguments 2) specific_args
      pure (if subs.success then some subs else none)
  else pure (some { subs with success := true })

/-- Assumption of failure for a case not experienced before (src/Decision.c 253-262). -/
def anticipateMissing (n : Narsese) (currentTime : Int) (decision : Decision) : M Unit := do
  let imp := decision.missing_specific_implication
  if imp.term.get 0 ≠ 0 then
    match (← Memory_Conceptualize n (Term_ExtractSubterm imp.term 2) currentTime) with
    | none => pure ()
    | some postc =>
      match decision.reason with
      | none => throw (.ub "NULL reason")
      | some reason =>
        let s ← get
        Decision_AddNegativeConfirmation (s.concept_storage reason).belief_spike imp decision.operationID postc

/-- Execution of the operation of a decision (src/Decision.c 193-267). `addInputBelief` is `NAR_AddInputBelief`. -/
def executeOperation (n : Narsese) (addInputBelief : Term → M Unit) (currentTime : Int) (decision : Decision) :
    M Unit := do
  let s ← get
  let op := s.operations (decision.operationID - 1)
  match operationFeedbackTerm op.term decision.arguments with
  | none => pure ()
  | some feedbackTerm =>
    emit (.executed op.term decision.arguments)
    match op.action with
    | none => throw (.ub "NULL action")
    | some action =>
      let feedback := action decision.arguments
      if !feedback.failed then
        match (← readOperationResult n op decision.arguments feedback.subs) with
        | none => pure ()
        | some subs =>
          let r ← Variable_ApplySubstitute n feedbackTerm subs
          if r.2 then
            addInputBelief r.1
            anticipateMissing n currentTime decision

/-- `Decision_Execute` (src/Decision.c 51-269). -/
def Decision_Execute (n : Narsese) (addInputBelief : Term → M Unit) (currentTime : Int) (decision : Decision) :
    M Unit := do
  functionalEquivalence n currentTime decision
  if decision.operationID ≠ 0 then executeOperation n addInputBelief currentTime decision

/-- The number of registered operations (src/Decision.c 275-279). -/
def Sys.operationCount (s : Sys) : Nat :=
  ((List.range OPERATIONS_MAX).takeWhile fun i => (s.operations i).term.get 0 ≠ 0).length

/-- `a % b` for a random number. -/
def randMod (b : Nat) : M Nat := do
  if b = 0 then throw (.ub "modulo by zero")
  let r ← nextRand
  pure (r % b)

/-- The argument term `({SELF} * arg)` of a babbled operation (src/Decision.c 296-303). -/
def babbleArguments (n : Narsese) (arg : Term) : Term :=
  let t := (Term.zero.put 0 (copulaAtom PRODUCT)).put 1 (copulaAtom EXT_SET)
  ((Term_OverrideSubterm t 2 arg).2.put 3 n.SELF).put 4 (copulaAtom SET_TERMINATOR)

/-- `Decision_MotorBabbling` (src/Decision.c 272-307). -/
def Decision_MotorBabbling (n : Narsese) : M Decision := do
  let s ← get
  let n_ops := s.operationCount
  if n_ops > 0 then
    let k ← randMod (min s.BABBLING_OPS n_ops)
    let decision := { Decision.zero with operationID := 1 + k, execute := true, desire := 1 }
    let op := s.operations k
    if (op.arguments 0).get 0 ≠ 0 then
      let n_args := ((List.range OPERATIONS_BABBLE_ARGS_MAX).takeWhile fun i => (op.arguments i).get 0 ≠ 0).length
      let argumentID ← randMod n_args
      pure { decision with arguments := babbleArguments n (op.arguments argumentID) }
    else pure decision
  else pure Decision.zero

/-- One link in `Decision_ConsiderNegativeOutcomes` (src/Decision.c 320-334). There is no check whether the source concept
of the link is still the same. -/
def negativeOutcome (n : Narsese) (s : Sys) (decision : Decision) (c : Concept) (outcomes : Event) (imp : Implication) :
    R Event :=
  match imp.sourceConcept with
  | none => .error (.ub "NULL source concept")
  | some p => do
    let prec := s.concept_storage p
    if prec.belief_spike.type ≠ .deleted && s.currentTime - prec.belief_spike.occurrenceTime < EVENT_BELIEF_DISTANCE then do
      let opTerm2 := Narsese_OperationSequenceAppendLeftNested n termDepth Term.zero (Term_ExtractSubterm imp.term 1)
      cassert opTerm2.1 "Failed to extract operation in bad implication!"
      if decision.operationTerm = opTerm2.2 then do
        let ContextualOperation ← Inference_GoalDeduction n c.goal_spike imp s.currentTime
        let OpGoalLocal := Inference_GoalSequenceDeduction ContextualOperation prec.belief_spike s.currentTime
        let r ← Inference_RevisionAndChoice n outcomes OpGoalLocal
        .ok r.1
      else .ok outcomes
    else .ok outcomes

/-- The loops of `Decision_ConsiderNegativeOutcomes` (src/Decision.c 311-337). -/
def negativeOutcomes (n : Narsese) (s : Sys) (decision : Decision) : R Event :=
  (List.range s.concepts.itemsAmount).foldlM (fun outcomes i =>
    let c := s.concept_storage (s.concepts.items i).address
    if c.goal_spike.type ≠ .deleted && s.currentTime - c.goal_spike.occurrenceTime < EVENT_BELIEF_DISTANCE then
      let t := c.precondition_beliefs decision.operationID
      ((List.range t.itemsAmount).map t.array).foldlM (negativeOutcome n s decision c) outcomes
    else .ok outcomes) Event.zero

/-- `Decision_ConsiderNegativeOutcomes` (src/Decision.c 309-344). It reads the global `currentTime`. -/
def Decision_ConsiderNegativeOutcomes (n : Narsese) (s : Sys) (decision : Decision) : R Decision := do
  let outcomes ← negativeOutcomes n s decision
  if Truth_Expectation outcomes.truth < 1 / 2 then .ok Decision.zero else .ok decision

/-- The loop of `Decision_ConsiderImplication` over the operations of the sequence (src/Decision.c 383-409); `i` counts
from 1, `none` is `return (Decision) {0}` of line 402. -/
def considerOperations (n : Narsese) (s : Sys) : Nat → Nat → Term → Decision → R (Option Decision)
  | 0, _, _, d => .ok (some d)
  | fuel + 1, i, seq, d =>
    if Narsese_copulaEquals n (seq.get 0) SEQUENCE then
      let operation := Term_ExtractSubterm seq 2
      if !Narsese_isOperation n operation then .ok (some d)
      else if i > 1 then .error (.assertFail "Operation sequence longer than the FIFO can build")
      else if !Narsese_isOperator n (operation.get 0) then do
        cassert (Narsese_isOperator n (operation.get 2)) "If it's not atomic, it needs to be an operation with args here"
        let arguments := Term_ExtractSubterm operation 1
        if arguments.get 3 ≠ n.SELF then .ok none
        else
          considerOperations n s fuel (i + 1) (Term_ExtractSubterm seq 1)
            { d with arguments := arguments, operationID := s.operationID n operation }
      else considerOperations n s fuel (i + 1) (Term_ExtractSubterm seq 1)
        { d with operationID := s.operationID n operation }
    else .ok (some d)

/-- `Decision_ConsiderImplication` (src/Decision.c 346-412). -/
def Decision_ConsiderImplication (n : Narsese) (s : Sys) (currentTime : Int) (goal : Event) (imp : Implication)
    (preconTruth : Truth) : R Decision :=
  match imp.sourceConcept with
  | none => .error (.ub "NULL source concept")
  | some p => do
    let precondition := (s.concept_storage p).belief_spike
    let ContextualOperation ← Inference_GoalDeduction n goal imp currentTime
    let imp_subject := Term_ExtractSubterm imp.term 1
    let operationTerm := Narsese_OperationSequenceAppendLeftNested n termDepth Term.zero imp_subject
    cassert operationTerm.1 "Failed to extract operation in considered implication!"
    let preconCopy := { precondition with truth := preconTruth }
    let desireValue := (Inference_GoalSequenceDeduction ContextualOperation preconCopy currentTime).truth
    let decision := { Decision.zero with
      operationTerm := operationTerm.2, reason := some p, desire := Truth_Expectation desireValue }
    let r ← considerOperations n s termDepth 1 imp_subject decision
    match r with
    | none => .ok Decision.zero
    | some decision => Decision_ConsiderNegativeOutcomes n s decision

/-- What `Decision_BestCandidate` remembers: `decision`, `bestImp`, `bestComplexity` (src/Decision.c 416-418). -/
structure Candidate where
  decision : Decision
  bestImp : Implication
  bestComplexity : Nat

/-- `Variable_UnifyWithAnalogy` with the global similarity distance. -/
def Sys.unifyWithAnalogy (s : Sys) (n : Narsese) (truth : Truth) (general specific : Term) : R Substitution :=
  Variable_UnifyWithAnalogy n s.similarity_distance truth general specific

/-- The links of the operations (src/Decision.c 451-453): `opk` from 1 as long as operations are registered. -/
def Sys.operationLinks (s : Sys) (goalconcept : Nat) : List Implication :=
  (List.range s.operationCount).flatMap fun k =>
    let t := (s.concept_storage goalconcept).precondition_beliefs (k + 1)
    (List.range t.itemsAmount).map t.array

/-- `hasCloserPreconditionLink` (src/Decision.c 450-471). -/
def hasCloserPreconditionLink (n : Narsese) (s : Sys) (goalconcept : Nat) (cmatch : Concept) (confidence : ℚ) : R Bool :=
  (s.operationLinks goalconcept).anyM fun impk => do
    let left_sidek := Narsese_GetPreconditionWithoutOp n termDepth (Term_ExtractSubterm impk.term 1)
    let subs3 ← s.unifyWithAnalogy n cmatch.belief_spike.truth left_sidek cmatch.term
    .ok (subs3.success && decide (subs3.truth.confidence > confidence))

/-- The links of the concept of the specific consequence which are equal to the specific implication
(src/Decision.c 485-505). -/
def relatedLinks (s : Sys) (opi : Nat) (specific : Term) : R (List Implication) := do
  match (← s.HTconcepts.get s.termOps (Term_ExtractSubterm specific 2)) with
  | none => .ok []
  | some c =>
    let t := (s.concept_storage c).precondition_beliefs opi
    .ok (((List.range t.itemsAmount).map t.array).filter fun r => specific = r.term)

/-- Choosing between a considered decision and the best one so far (src/Decision.c 510-518, 526-533). -/
def betterCandidate (considered : Decision) (imp link specific_imp : Implication) (opi : Nat) (best : Candidate) :
    Candidate :=
  let complexity := Term_Complexity specific_imp.term
  if considered.desire > best.decision.desire ||
      (considered.desire = best.decision.desire && complexity < best.bestComplexity) then
    { decision := { considered with usedContingency := link, tableIndex := opi, specific_implication := specific_imp }
      bestImp := imp, bestComplexity := complexity }
  else best

/-- Considering a specific implication (src/Decision.c 481-534). -/
def considerSpecific (n : Narsese) (s : Sys) (goal : Event) (currentTime : Int) (opi : Nat) (imp link : Implication)
    (impHasVariable perfectMatch : Bool) (preconTruth : Truth) (specific_imp : Implication) (best : Candidate) :
    R Candidate := do
  let considered ← Decision_ConsiderImplication n s currentTime goal specific_imp preconTruth
  if impHasVariable then do
    let related ← relatedLinks s opi specific_imp.term
    let inhibited := related.any fun r => decide (r.truth.confidence > SUBSUMPTION_CONFIDENCE_THRESHOLD) &&
      decide (r.truth.frequency < SUBSUMPTION_FREQUENCY_THRESHOLD)
    let considered := if related.isEmpty || !perfectMatch
      then { considered with missing_specific_implication := specific_imp } else considered
    if inhibited then .ok best else .ok (betterCandidate considered imp link specific_imp opi best)
  else
    let considered := if !perfectMatch then { considered with missing_specific_implication := specific_imp } else considered
    .ok (betterCandidate considered imp link specific_imp opi best)

/-- One concept in the loop over potential preconditions (src/Decision.c 443-537). -/
def considerPrecondition (n : Narsese) (s : Sys) (goalconcept : Nat) (goal : Event) (currentTime : Int) (opi : Nat)
    (imp link : Implication) (impHasVariable generic : Bool) (best : Candidate) (k : Nat) : R Candidate := do
  let cell := (s.concepts.items k).address
  let cmatch := s.concept_storage cell
  let left_side := Narsese_GetPreconditionWithoutOp n termDepth (Term_ExtractSubterm imp.term 1)
  if !Variable_hasVariable n cmatch.term true true true && cmatch.belief_spike.type ≠ .deleted then do
    let subs2 ← s.unifyWithAnalogy n cmatch.belief_spike.truth left_side cmatch.term
    if subs2.success then do
      let perfectMatch := decide (subs2.truth.confidence = cmatch.belief_spike.truth.confidence)
      let closer ← (if perfectMatch then .ok false
        else hasCloserPreconditionLink n s goalconcept cmatch subs2.truth.confidence : R Bool)
      if closer then .ok best
      else do
        let r ← Variable_ApplySubstitute n imp.term subs2
        if r.2 && (!generic || !Variable_hasVariable n r.1 true false false) then
          considerSpecific n s goal currentTime opi imp link impHasVariable perfectMatch subs2.truth
            { imp with term := r.1, sourceConcept := some cell, sourceConceptId := cmatch.id } best
        else .ok best
    else .ok best
  else .ok best

/-- A valid link in `Decision_BestCandidate` (src/Decision.c 432-539). -/
def considerLink (n : Narsese) (s : Sys) (goalconcept : Nat) (goal : Event) (currentTime : Int) (subs : Substitution)
    (generic : Bool) (opi : Nat) (link : Implication) (best : Candidate) : R Candidate := do
  let impHasVariable := Variable_hasVariable n link.term true true true
  let r ← Variable_ApplySubstitute n link.term subs
  if r.2 then do
    let imp := { link with term := r.1 }
    cassert (Narsese_copulaEquals n (imp.term.get 0) TEMPORAL_IMPLICATION) "This should be a temporal implication!"
    (List.range s.concepts.itemsAmount).foldlM
      (considerPrecondition n s goalconcept goal currentTime opi imp link impHasVariable generic) best
  else .ok best

/-- The loop over the links of one operation (src/Decision.c 425-540): invalid links are removed, the others
considered. The loop variables are `j` and the best candidate. -/
def considerLinks (n : Narsese) (goalconcept : Nat) (goal : Event) (currentTime : Int) (subs : Substitution)
    (generic : Bool) (opi : Nat) (best : Candidate) : M Candidate := do
  let r ← loopM (fun (j, best) => do
    let s ← get
    let t := (s.concept_storage goalconcept).precondition_beliefs opi
    if j < t.itemsAmount then
      if (← s.implicationValid (t.array j)) then
        let best ← considerLink n s goalconcept goal currentTime subs generic opi (t.array j) best
        pure (true, (j + 1, best))
      else
        modifyConcept goalconcept fun c =>
          { c with precondition_beliefs := upd c.precondition_beliefs opi (Table_Remove t j) }
        pure (true, (j, best))
    else pure (false, (j, best))) (TABLE_SIZE + 1) (0, best)
  pure r.2

/-- The loop over the operations (src/Decision.c 423-541). -/
def considerOperationTables (n : Narsese) (goalconcept : Nat) (goal : Event) (currentTime : Int) (subs : Substitution)
    (generic : Bool) : List Nat → Candidate → M Candidate
  | [], best => pure best
  | opi :: rest, best => do
    let s ← get
    if (s.operations (opi - 1)).term.get 0 ≠ 0 then
      let best ← considerLinks n goalconcept goal currentTime subs generic opi best
      considerOperationTables n goalconcept goal currentTime subs generic rest best
    else pure best

/-- `Decision_BestCandidate` (src/Decision.c 414-554). -/
def Decision_BestCandidate (n : Narsese) (goalconcept : Nat) (goal : Event) (currentTime : Int) : M Decision := do
  let s ← get
  let term := (s.concept_storage goalconcept).term
  let generic := Variable_hasVariable n term true true true && Variable_hasVariable n goal.term true true true
  let subs ← Variable_Unify n term goal.term
  let start : Candidate := ⟨Decision.zero, Implication.zero, COMPOUND_TERM_SIZE_MAX + 1⟩
  let best ← (if subs.success then
      considerOperationTables n goalconcept goal currentTime subs generic
        ((List.range OPERATIONS_MAX).map (· + 1)) start
    else pure start : M Candidate)
  let decision := best.decision
  let s ← get
  if decision.desire < s.DECISION_THRESHOLD then pure Decision.zero
  else
    match decision.reason with
    | none => throw (.ub "NULL reason")
    | some _ =>
      emit (.decision decision.desire best.bestImp)
      pure { decision with execute := true }

/-- Removing the links whose source concept was recycled (src/Decision.c 566-576, 581-591): `m` entries are left, the
entries before `k` are kept. -/
def pruneLoop (s : Sys) : Nat → Nat → Table → R Table
  | 0, _, t => .ok t
  | m + 1, k, t => do
    if (← s.implicationValid (t.array k)) then pruneLoop s m (k + 1) t
    else pruneLoop s m k (Table_Remove t k)

/-- See `pruneLoop`. -/
def pruneTable (s : Sys) (t : Table) : R Table := pruneLoop s t.itemsAmount 0 t

/-- The valid links of a concept to be used for anticipation (src/Decision.c 561-592). -/
def anticipationLinks (operationID : Nat) (declarative : Bool) (postc : Nat) : M (List Implication) := do
  let s ← get
  let c := s.concept_storage postc
  if !declarative then
    let t ← pruneTable s (c.precondition_beliefs operationID)
    modifyConcept postc fun c => { c with precondition_beliefs := upd c.precondition_beliefs operationID t }
    pure ((List.range t.itemsAmount).map t.array)
  else if operationID = 0 then
    let t ← pruneTable s c.implication_links
    modifyConcept postc fun c => { c with implication_links := t }
    pure ((List.range t.itemsAmount).map t.array)
  else pure []

/-- The test whether the executed operation is the one of the link (src/Decision.c 600-619). -/
def sameOperation (n : Narsese) (operationID : Nat) (opTerm : Term) (imp : Implication) (precondition : Event) : R Bool :=
  if operationID > 0 then do
    let imp_subject := Term_ExtractSubterm imp.term 1
    let a_term_nop := Narsese_GetPreconditionWithoutOp n termDepth imp_subject
    let operation := Narsese_getOperationTerm n termDepth imp_subject
    let subs ← Variable_Unify n a_term_nop precondition.term
    if subs.success then do
      let r ← Variable_ApplySubstitute n operation subs
      if r.2 then do
        let subs2 ← Variable_Unify n r.1 opTerm
        .ok subs2.success
      else .ok false
    else .ok false
  else .ok true

/-- The anticipated event (src/Decision.c 620-629); `none` if the sequence could not be built. -/
def anticipated (n : Narsese) (operationID : Nat) (imp : Implication) (precondition : Event) (currentTime : Int) :
    R (Option Event) := do
  cassert (decide (precondition.occurrenceTime ≠ OCCURRENCE_ETERNAL)) "Precondition should not be eternal!"
  let op : Event := { Event.zero with type := .belief, truth := ⟨1, rnd (9 / 10)⟩, occurrenceTime := currentTime }
  let r ← Inference_BeliefIntersection precondition op
  match r with
  | none => .ok none
  | some seqop => do
    let result ← Inference_BeliefDeduction n (if operationID = 0 then precondition else seqop) imp
    .ok (some result)

/-- The condition of src/Decision.c 630. -/
def anticipationRelevant (n : Narsese) (threshold : ℚ) (imp : Implication) (result : Event) : Bool :=
  Narsese_copulaEquals n (imp.term.get 0) IMPLICATION || decide (Truth_Expectation result.truth > threshold) ||
    (decide (result.truth.confidence < SUBSUMPTION_CONFIDENCE_THRESHOLD) && decide (result.truth.frequency = 0))

/-- Recording the anticipated event in its concept (src/Decision.c 643-672). -/
def recordAnticipation (n : Narsese) (imp : Implication) (prec : Nat) (result : Event) (c : Nat) (currentTime : Int) :
    M Unit := do
  let s ← get
  if !Stamp_checkOverlap (s.concept_storage prec).belief_spike.stamp imp.stamp then
    modifyConcept c fun c => { c with usage := Usage_use c.usage currentTime false }
    let concept := (← get).concept_storage c
    if Narsese_copulaEquals n (imp.term.get 0) TEMPORAL_IMPLICATION then
      let r ← Inference_RevisionAndChoice n concept.predicted_belief result
      modifyConcept c fun c => { c with predicted_belief := r.1 }
    else if !Stamp_Equal concept.belief_spike.stamp result.stamp then
      let r ← Inference_RevisionAndChoice n concept.belief_spike result
      modifyConcept c fun c => { c with belief_spike := r.1 }

/-- Anticipation with one link (src/Decision.c 595-678). -/
def anticipateWith (n : Narsese) (operationID : Nat) (opTerm : Term) (currentTime : Int) (postc : Nat)
    (imp : Implication) : M Unit := do
  match imp.sourceConcept with
  | none => throw (.ub "NULL source concept")
  | some prec =>
    let s ← get
    let precondition := (s.concept_storage prec).belief_spike
    if precondition.type ≠ .deleted then
      if (← sameOperation n operationID opTerm imp precondition) then
        match (← anticipated n operationID imp precondition currentTime) with
        | none => pure ()
        | some result =>
          if anticipationRelevant n s.ANTICIPATION_THRESHOLD imp result then
            if Narsese_copulaEquals n (imp.term.get 0) TEMPORAL_IMPLICATION then
              Decision_AddNegativeConfirmation precondition imp operationID postc
            let current := (← get).concept_storage prec
            let subs ← Variable_Unify n current.term current.belief_spike.term
            if subs.success then
              let r ← Variable_ApplySubstitute n result.term subs
              if r.2 then
                match (← Memory_Conceptualize n r.1 currentTime) with
                | none => pure ()
                | some c => recordAnticipation n imp prec { result with term := r.1 } c currentTime

/-- `Decision_Anticipate` (src/Decision.c 556-681). The loop variable is `j`; there are at most `maxElements` concepts. -/
def Decision_Anticipate (n : Narsese) (operationID : Nat) (opTerm : Term) (declarative : Bool) (currentTime : Int) :
    M Unit := do
  cassert (decide (operationID ≤ OPERATIONS_MAX)) "Wrong operation id, did you inject an event manually?"
  let s ← get
  let _ ← loopM (fun j => do
    let s ← get
    if j < s.concepts.itemsAmount then
      let postc := (s.concepts.items j).address
      let links ← anticipationLinks operationID declarative postc
      links.forM (anticipateWith n operationID opTerm currentTime postc)
      pure (true, j + 1)
    else pure (false, j)) (s.concepts.maxElements + 1) 0

/-- `Decision_Suggest` (src/Decision.c 683-698). -/
def Decision_Suggest (n : Narsese) (postc : Nat) (goal : Event) (currentTime : Int) : M Decision := do
  let r ← nextRand
  let s ← get
  let babble_decision ← (if (r : Int) < ctrunc (fmul s.MOTOR_BABBLING_CHANCE 32767) then Decision_MotorBabbling n
    else pure Decision.zero : M Decision)
  let decision_suggested ← Decision_BestCandidate n postc goal currentTime
  if !babble_decision.execute || decide (decision_suggested.desire > MOTOR_BABBLING_SUPPRESSION_THRESHOLD) then
    pure decision_suggested
  else pure babble_decision

/-- `Decision_BetterDecision` (src/Decision.c 700-707). -/
def Decision_BetterDecision (best_decision decision : Decision) : Decision :=
  if decision.execute && decide (decision.desire ≥ best_decision.desire) then decision else best_decision

end
end ONA
