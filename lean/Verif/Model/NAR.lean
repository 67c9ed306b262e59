import Verif.Model.Cycle
import Verif.Model.Parser
/-
Model of src/NAR.c. The state of the program is the atom table and the globals of `Sys`; the text echoed for a question
(src/NAR.c 146-150) is not modelled.
-/
namespace ONA

/-- Bounds of the model on traversals which the code does not bound: `chain` on the number of elements visited in an
index chain (src/Cycle.c 36), `depth` on the nesting of executions: an executed operation adds an input event, which
performs a cycle, which may execute an operation (src/NAR.c 55-66, src/Decision.c 252). -/
structure Fuel where
  chain : Nat
  depth : Nat

section
variable [Arith]

/-- `NAR_DEFAULT_TRUTH` (src/NAR.h 43, src/Config.h 158, 160). -/
def NAR_DEFAULT_TRUTH : Truth := ⟨1, rnd (9 / 10)⟩

/-- `NAR_INIT` (src/NAR.c 32-42) with given sizes of the memory and the atom table. -/
def NAR_INIT_sizes (sz : MemorySizes) (atoms : Nat) (s : Sys) : R (Narsese × Sys) := do
  cassert (decide (Arith.pow TRUTH_PROJECTION_DECAY 20 ≥ MIN_CONFIDENCE))
    "Bad params, increase projection decay or decrease event belief distance!"
  let (_, s) ← Memory_INIT_sizes sz s
  let s := { s with event := Event_INIT s.event }
  let n ← Narsese.initWith atoms
  let (_, s) ← Cycle_INIT s
  .ok (n, { s with currentTime := 1, initialized := true, op_k := 0 })

/-- `NAR_INIT` (src/NAR.c 32-42). -/
def NAR_INIT (s : Sys) : R (Narsese × Sys) := NAR_INIT_sizes MemorySizes.program ATOMS_MAX s

/-- The body of the loop of `NAR_Cycles` (src/NAR.c 49-51). -/
def oneCycle (n : Narsese) (chain : Nat) (addInputBelief : Term → M Unit) : M Unit := do
  let s ← get
  Cycle_Perform n chain addInputBelief s.currentTime
  modify fun s => { s with currentTime := s.currentTime + 1 }

/-- `NAR_Cycles` (src/NAR.c 44-53). -/
def cyclesWith (n : Narsese) (chain : Nat) (addInputBelief : Term → M Unit) (cycles : Nat) : M Unit := do
  let s ← get
  cassert s.initialized "NAR not initialized yet, call NAR_INIT first!"
  (List.range cycles).forM fun _ => oneCycle n chain addInputBelief

/-- `NAR_AddInput` (src/NAR.c 55-66); the result is the event. -/
def addInputWith (n : Narsese) (chain : Nat) (addInputBelief : Term → M Unit) (term : Term) (type : EventType)
    (truth : Truth) (eternal : Bool) (occurrenceTimeOffset : ℚ) : M Event := do
  let s ← get
  cassert s.initialized "NAR not initialized yet, call NAR_INIT first!"
  let r := Event_InputEvent s.event term type truth occurrenceTimeOffset s.currentTime
  set { s with event := r.2 }
  let ev := if eternal then { r.1 with occurrenceTime := OCCURRENCE_ETERNAL } else r.1
  Memory_AddInputEvent n ev s.currentTime
  cyclesWith n chain addInputBelief 1
  pure ev

/-- `NAR_AddInputBelief` (src/NAR.c 68-72) as called by `Decision_Execute`, for a given nesting depth. -/
def addInputBeliefNested (n : Narsese) (chain : Nat) : Nat → Term → M Unit
  | 0, _ => throw .fuel
  | depth + 1, term => do
    let _ ← addInputWith n chain (addInputBeliefNested n chain depth) term .belief NAR_DEFAULT_TRUTH false 0

/-- `NAR_Cycles` (src/NAR.c 44-53). -/
def NAR_Cycles (n : Narsese) (fuel : Fuel) (cycles : Nat) : M Unit :=
  cyclesWith n fuel.chain (addInputBeliefNested n fuel.chain fuel.depth) cycles

/-- `NAR_AddInput` (src/NAR.c 55-66). -/
def NAR_AddInput (n : Narsese) (fuel : Fuel) (term : Term) (type : EventType) (truth : Truth) (eternal : Bool)
    (occurrenceTimeOffset : ℚ) : M Event :=
  addInputWith n fuel.chain (addInputBeliefNested n fuel.chain fuel.depth) term type truth eternal occurrenceTimeOffset

/-- `NAR_AddInputBelief` (src/NAR.c 68-72). -/
def NAR_AddInputBelief (n : Narsese) (fuel : Fuel) (term : Term) : M Event :=
  NAR_AddInput n fuel term .belief NAR_DEFAULT_TRUTH false 0

/-- `NAR_AddInputGoal` (src/NAR.c 74-77). -/
def NAR_AddInputGoal (n : Narsese) (fuel : Fuel) (term : Term) : M Event :=
  NAR_AddInput n fuel term .goal NAR_DEFAULT_TRUTH false 0

end

/-- The part of `NAR_AddOperation` after the name was registered (src/NAR.c 84-95). -/
def registerOperation (n : Narsese) (operator_name : CStr) (term : Term) (procedure : Term → Feedback) : M Unit := do
  cassert (decide (operator_name.head? = some '^')) "This atom does not belong to an operator!"
  let s ← get
  let existing_k := s.operationID n term
  let use_k := if existing_k = 0 then s.op_k + 1 else existing_k
  cassert (decide (use_k ≤ OPERATIONS_MAX)) "Too many operators, increase OPERATIONS_MAX!"
  set { s with
    op_k := if existing_k = 0 then s.op_k + 1 else s.op_k
    operations := upd s.operations (use_k - 1) ⟨term, some procedure, fun _ => Term.zero, false⟩ }

/-- `NAR_AddOperation` (src/NAR.c 79-96); the procedure is not NULL. -/
def NAR_AddOperation (n : Narsese) (operator_name : CStr) (procedure : Term → Feedback) (s : Sys) :
    R (Narsese × Sys) := do
  cassert s.initialized "NAR not initialized yet, call NAR_INIT first!"
  let (term, n) ← Narsese_AtomicTerm n operator_name
  let (_, s) ← registerOperation n operator_name term procedure s
  .ok (n, s)

section
variable [Arith]

/-! ### Questions -/

/-- The confidence marking that there is no answer (src/NAR.c 101, 139). -/
def noAnswerConfidence : ℚ := rnd (11 / 10)

/-- `NAR_PrintAnswer` (src/NAR.c 98-121). -/
def printedAnswer (stamp : Stamp) (term : Term) (truth : Truth) (occurrenceTime creationTime : Int) : Output :=
  if truth.confidence = noAnswerConfidence then .answerNone else .answer stamp term truth occurrenceTime creationTime

/-- The local variables of question answering (src/NAR.c 139-145), and what was printed. -/
structure Answer where
  best_truth : Truth
  best_truth_projected : Truth
  best_belief_concept : Option Nat
  best_term : Term
  best_stamp : Stamp
  answerOccurrenceTime : Int
  answerCreationTime : Int
  printed : List Output

/-- Their initial values. -/
def Answer.initial : Answer :=
  ⟨⟨0, noAnswerConfidence⟩, ⟨0, 1⟩, none, Term.zero, Stamp.zero, OCCURRENCE_ETERNAL, 0, []⟩

/-- A question: the parsed term and tense, and the parameters of `NAR_AddInputNarsese2`. -/
structure Question where
  term : Term
  tense : Nat
  queryCommand : Bool
  answerTruthExpThreshold : ℚ

/-- Printing a matching answer of a query (src/NAR.c 170-173 and similar). -/
def Question.printMatch (q : Question) (expectation : ℚ) (o : Output) (a : Answer) : Answer :=
  if q.queryCommand && decide (expectation > q.answerTruthExpThreshold) then { a with printed := a.printed ++ [o] } else a

/-- `Variable_Unify2(unused, general, specific, true).success`. -/
def Sys.questionMatches (s : Sys) (n : Narsese) (general specific : Term) : R Bool := do
  let subs ← Variable_Unify2 n s.similarity_distance ⟨0, 0⟩ general specific true
  .ok subs.success

/-- A link as potential answer (src/NAR.c 166-181, 194-209). -/
def answerLink (n : Narsese) (s : Sys) (q : Question) (a : Answer) (imp : Implication) : R Answer := do
  if (← s.questionMatches n q.term imp.term) then
    let a := q.printMatch (Truth_Expectation imp.truth)
      (printedAnswer imp.stamp imp.term imp.truth a.answerOccurrenceTime imp.creationTime) a
    if Truth_Expectation imp.truth ≥ Truth_Expectation a.best_truth then
      .ok { a with best_stamp := imp.stamp, best_truth := imp.truth, best_term := imp.term
                   answerCreationTime := imp.creationTime }
    else .ok a
  else .ok a

/-- The links of a table as potential answers. -/
def answerTable (n : Narsese) (s : Sys) (q : Question) (a : Answer) (t : Table) : R Answer :=
  ((List.range t.itemsAmount).map t.array).foldlM (answerLink n s q) a

/-- Taking an event of a concept as answer. -/
def Answer.take (a : Answer) (c : Nat) (e : Event) (projected : Truth) : Answer :=
  { a with best_stamp := e.stamp, best_truth_projected := projected, best_truth := e.truth, best_term := e.term
           best_belief_concept := some c, answerOccurrenceTime := e.occurrenceTime, answerCreationTime := e.creationTime }

/-- The belief event as answer (src/NAR.c 216-236). -/
def answerSpike (s : Sys) (q : Question) (c : Nat) (a : Answer) : Answer :=
  let e := (s.concept_storage c).belief_spike
  if e.type ≠ .deleted && (q.tense = 1 || q.tense = 2) then
    let projected := Truth_Projection e.truth e.occurrenceTime s.currentTime
    let a := q.printMatch (Truth_Expectation projected)
      (printedAnswer e.stamp e.term e.truth e.occurrenceTime e.creationTime) a
    if Truth_Expectation projected > Truth_Expectation a.best_truth_projected ||
        (Truth_Expectation e.truth > Truth_Expectation a.best_truth && e.occurrenceTime = a.answerOccurrenceTime) ||
        (Truth_Expectation projected = Truth_Expectation a.best_truth_projected &&
          e.occurrenceTime > a.answerOccurrenceTime) then
      a.take c e projected
    else a
  else a

/-- The predicted event as answer (src/NAR.c 237-255). -/
def answerPrediction (s : Sys) (q : Question) (c : Nat) (a : Answer) : Answer :=
  let e := (s.concept_storage c).predicted_belief
  if e.type ≠ .deleted && (q.tense = 1 || q.tense = 3) then
    let projected := Truth_Projection e.truth e.occurrenceTime s.currentTime
    let a := q.printMatch (Truth_Expectation projected)
      (printedAnswer e.stamp e.term e.truth e.occurrenceTime e.creationTime) a
    if Truth_Expectation projected > Truth_Expectation a.best_truth_projected ||
        (Truth_Expectation projected = Truth_Expectation a.best_truth_projected &&
          e.occurrenceTime > a.answerOccurrenceTime) then
      a.take c e projected
    else a
  else a

/-- The eternal belief as answer (src/NAR.c 257-270). -/
def answerBelief (s : Sys) (q : Question) (c : Nat) (a : Answer) : Answer :=
  let e := (s.concept_storage c).belief
  if e.type ≠ .deleted then
    let a := q.printMatch (Truth_Expectation e.truth)
      (printedAnswer e.stamp e.term e.truth e.occurrenceTime e.creationTime) a
    if Truth_Expectation e.truth ≥ Truth_Expectation a.best_truth then
      { a with best_stamp := e.stamp, best_truth := e.truth, best_term := e.term, best_belief_concept := some c
               answerCreationTime := e.creationTime }
    else a
  else a

/-- The tables searched for temporal implications (src/NAR.c 190): the last one, of operation `OPERATIONS_MAX`, is not
among them. -/
def questionTables : List Nat := List.range OPERATIONS_MAX

/-- The part after the declarative links (src/NAR.c 184-271). -/
def answerConcept (n : Narsese) (s : Sys) (q : Question) (c : Nat) (a : Answer) : R Answer := do
  let concept := s.concept_storage c
  let isImplication := Narsese_copulaEquals n (q.term.get 0) TEMPORAL_IMPLICATION
  let toCompare := if isImplication then Term_ExtractSubterm q.term 2 else q.term
  if (← s.questionMatches n toCompare concept.term) then
    if isImplication then
      (questionTables.map concept.precondition_beliefs).foldlM (answerTable n s q) a
    else if q.tense ≠ 0 then .ok (answerPrediction s q c (answerSpike s q c a))
    else .ok (answerBelief s q c a)
  else .ok a

/-- The body of the loop over the concepts (src/NAR.c 153-271). -/
def answerFrom (n : Narsese) (s : Sys) (q : Question) (a : Answer) (i : Nat) : R Answer := do
  let c := (s.concepts.items i).address
  if Narsese_copulaEquals n (q.term.get 0) IMPLICATION then
    if (← s.questionMatches n (Term_ExtractSubterm q.term 2) (s.concept_storage c).term) then
      let a ← answerTable n s q a (s.concept_storage c).implication_links
      answerConcept n s q c a
    else .ok a
  else answerConcept n s q c a

/-- The loop over the concepts (src/NAR.c 151-272). -/
def bestAnswer (n : Narsese) (s : Sys) (q : Question) : R Answer :=
  (List.range s.concepts.itemsAmount).foldlM (answerFrom n s q) Answer.initial

/-- Answering a question (src/NAR.c 136-283). -/
def answerQuestion (n : Narsese) (q : Question) : M Unit := do
  let s ← get
  let a ← bestAnswer n s q
  modify fun s => { s with output := s.output ++ a.printed }
  match a.best_belief_concept with
  | none => pure ()
  | some c =>
    if s.QUESTION_PRIMING > 0 then
      modifyConcept c fun c =>
        { c with priority := cMAX c.priority s.QUESTION_PRIMING
                 usage := Usage_use c.usage s.currentTime (decide (q.tense = 0)) }
  if !q.queryCommand then
    emit (printedAnswer a.best_stamp a.best_term a.best_truth a.answerOccurrenceTime a.answerCreationTime)

/-- A belief or goal (src/NAR.c 284-297). -/
def inputSentence (n : Narsese) (fuel : Fuel) (sentence : Sentence) (term : Term) : M Unit := do
  cassert (!(decide (sentence.punctuation = '!') && decide (sentence.tense = 0))) "Eternal goals are not supported!"
  cassert (decide (sentence.punctuation ≠ '.') || decide (sentence.tense < 2))
    "Future and past belief events are not supported!"
  let _ ← NAR_AddInput n fuel term (if sentence.punctuation = '!' then .goal else .belief) sentence.truth
    (decide (sentence.tense = 0)) sentence.occurrenceTimeOffset

/-- `NAR_AddInputNarsese2` (src/NAR.c 123-298). -/
def NAR_AddInputNarsese2 (n : Narsese) (fuel : Fuel) (narsese_sentence : CStr) (queryCommand : Bool)
    (answerTruthExpThreshold : ℚ) (s : Sys) : R (Narsese × Sys) := do
  let (sentence, n) ← Narsese_Sentence n narsese_sentence
  let term := RuleTable_Reduce n sentence.term
  let (_, s) ← (if sentence.punctuation = '?' then
      answerQuestion n ⟨term, sentence.tense, queryCommand, answerTruthExpThreshold⟩
    else inputSentence n fuel sentence term : M Unit) s
  .ok (n, s)

/-- `NAR_AddInputNarsese` (src/NAR.c 300-303). -/
def NAR_AddInputNarsese (n : Narsese) (fuel : Fuel) (narsese_sentence : CStr) (s : Sys) : R (Narsese × Sys) :=
  NAR_AddInputNarsese2 n fuel narsese_sentence false 0 s

end
end ONA
