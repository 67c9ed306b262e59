import Verif.Model.Memory
import Verif.Model.RuleTable
/-
Model of src/NAL.c 138-453: the filters for derived statements and the derivation of events. All filters are enabled
(src/Config.h 176-195).
-/
namespace ONA

/-- The loop of `NAL_AtomAppearsTwice` (src/NAL.c 155-166), `k` iterations left, with the set of simple atoms seen. The
static array of the code is the set of atoms marked with the current value of `atomsCounter`. -/
def atomTwiceLoop (n : Narsese) (term : Term) : Nat → List Atom → Bool
  | 0, _ => false
  | k + 1, seen =>
    let atom := term.get (COMPOUND_TERM_SIZE_MAX - (k + 1))
    if seen.contains atom then true
    else atomTwiceLoop n term k (if Narsese_IsSimpleAtom n atom then atom :: seen else seen)

/-- `NAL_AtomAppearsTwice` (src/NAL.c 138-178). -/
def NAL_AtomAppearsTwice (n : Narsese) (term : Term) : Bool :=
  ((Narsese_copulaEquals n (term.get 0) INHERITANCE || Narsese_copulaEquals n (term.get 0) SIMILARITY) &&
    !(Narsese_copulaEquals n (term.get 1) PRODUCT && Narsese_copulaEquals n (term.get 3) PRODUCT &&
      Narsese_copulaEquals n (term.get 4) PRODUCT) &&
    atomTwiceLoop n term COMPOUND_TERM_SIZE_MAX []) ||
  ((Narsese_copulaEquals n (term.get 0) EQUIVALENCE || Narsese_copulaEquals n (term.get 0) IMPLICATION) &&
    decide (Term_ExtractSubterm term 1 = Term_ExtractSubterm term 2))

/-- The loop of `NAL_NestedHOLStatement` (src/NAL.c 187-201), `k` iterations left. -/
def nestedHOLLoop (n : Narsese) (term : Term) : Nat → Nat → Nat → Bool
  | 0, _, _ => false
  | k + 1, imp_equ, temp_equ =>
    let atom := term.get (COMPOUND_TERM_SIZE_MAX - (k + 1))
    let imp_equ := if Narsese_copulaEquals n atom IMPLICATION || Narsese_copulaEquals n atom EQUIVALENCE then imp_equ + 1
      else imp_equ
    let temp_equ := if Narsese_copulaEquals n atom TEMPORAL_IMPLICATION then temp_equ + 1 else temp_equ
    if imp_equ ≥ 2 ∨ temp_equ > 2 then true else nestedHOLLoop n term k imp_equ temp_equ

/-- `NAL_NestedHOLStatement` (src/NAL.c 180-203). -/
def NAL_NestedHOLStatement (n : Narsese) (term : Term) : Bool := nestedHOLLoop n term COMPOUND_TERM_SIZE_MAX 0 0

/-- `NAL_InhOrSimHasDepVar` (src/NAL.c 205-218). -/
def NAL_InhOrSimHasDepVar (n : Narsese) (term : Term) : Bool :=
  (Narsese_copulaEquals n (term.get 0) INHERITANCE || Narsese_copulaEquals n (term.get 0) SIMILARITY) &&
    Variable_hasVariable n term false true false

/-- `Variable_hasVariable(term, true, true, false) && Narsese_HasSimpleAtom(term)`. -/
def mixesVarsAndAtoms (n : Narsese) (term : Term) : Bool :=
  Variable_hasVariable n term true true false && Narsese_HasSimpleAtom n term

/-- The test of an inheritance or similarity statement inside a higher-order statement (src/NAL.c 230-275). Line 246 tests
`subject` for `EXT_IMAGE2`, as in the code. -/
def invalidInhOrSim (n : Narsese) (term : Term) : Bool :=
  let subject := Term_ExtractSubterm term 1
  let predicate := Term_ExtractSubterm term 2
  let isVar (a : Atom) := Variable_isIndependentVariable n a || Variable_isDependentVariable n a
  let subjectIsImage := Narsese_copulaEquals n (subject.get 0) INT_IMAGE1 || Narsese_copulaEquals n (subject.get 0) INT_IMAGE2
  let predicateIsImage := Narsese_copulaEquals n (predicate.get 0) EXT_IMAGE1 ||
    Narsese_copulaEquals n (subject.get 0) EXT_IMAGE2
  decide (subject = predicate) || (isVar (subject.get 0) && isVar (predicate.get 0)) ||
    !Variable_hasVariable n term true true false ||
    !Narsese_HasSimpleAtom n term ||
    (!subjectIsImage && !predicateIsImage && !Narsese_copulaEquals n (subject.get 0) SET_ELEMT &&
      !Narsese_copulaEquals n (predicate.get 0) SET_ELEMT &&
      (mixesVarsAndAtoms n subject || mixesVarsAndAtoms n predicate)) ||
    (subjectIsImage && (mixesVarsAndAtoms n (Term_ExtractSubterm subject 1) ||
      mixesVarsAndAtoms n (Term_ExtractSubterm subject 2))) ||
    (predicateIsImage && (mixesVarsAndAtoms n (Term_ExtractSubterm predicate 1) ||
      mixesVarsAndAtoms n (Term_ExtractSubterm predicate 2)))

/-- `NAL_HOLStatementComponentHasInvalidInhOrSim` (src/NAL.c 220-278). The recursion is over components, so it ends after
at most 7 calls. -/
def NAL_HOLStatementComponentHasInvalidInhOrSim (n : Narsese) : Nat → Term → Bool → Bool
  | 0, _, _ => false
  | fuel + 1, term, firstIteration =>
    if Narsese_copulaEquals n (term.get 0) EQUIVALENCE || Narsese_copulaEquals n (term.get 0) IMPLICATION ||
        Narsese_copulaEquals n (term.get 0) CONJUNCTION || Narsese_copulaEquals n (term.get 0) DISJUNCTION then
      NAL_HOLStatementComponentHasInvalidInhOrSim n fuel (Term_ExtractSubterm term 1) false ||
        NAL_HOLStatementComponentHasInvalidInhOrSim n fuel (Term_ExtractSubterm term 2) false
    else if !firstIteration &&
        (Narsese_copulaEquals n (term.get 0) INHERITANCE || Narsese_copulaEquals n (term.get 0) SIMILARITY) then
      invalidInhOrSim n term
    else false

/-- The loop of `NAL_JunctionNotRightNested` (src/NAL.c 286-297), `k` iterations left. The bound check of line 291 is
on `i` instead of the index of the child, which can be outside of the array. -/
def junctionLoop (n : Narsese) (term : Term) : Nat → R Bool
  | 0 => .ok false
  | k + 1 =>
    let i := COMPOUND_TERM_SIZE_MAX - (k + 1)
    if Narsese_copulaEquals n (term.get i) CONJUNCTION || Narsese_copulaEquals n (term.get i) DISJUNCTION then do
      let child ← term.read ((i + 1) * 2 + 1 - 1)
      if Narsese_copulaEquals n child CONJUNCTION || Narsese_copulaEquals n child DISJUNCTION then .ok true
      else junctionLoop n term k
    else junctionLoop n term k

/-- `NAL_JunctionNotRightNested` (src/NAL.c 280-299). -/
def NAL_JunctionNotRightNested (n : Narsese) (term : Term) : R Bool := junctionLoop n term COMPOUND_TERM_SIZE_MAX

/-- `InvalidSetOp` (src/NAL.c 301-317). -/
def InvalidSetOp (n : Narsese) (term : Term) : Bool :=
  Narsese_copulaEquals n (term.get 0) INHERITANCE &&
    ((Narsese_copulaEquals n (term.get 1) EXT_INTERSECTION && Narsese_copulaEquals n (term.get 3) EXT_SET &&
        Narsese_copulaEquals n (term.get 4) EXT_SET) ||
      (Narsese_copulaEquals n (term.get 2) INT_INTERSECTION && Narsese_copulaEquals n (term.get 5) INT_SET &&
        Narsese_copulaEquals n (term.get 6) INT_SET))

/-- `NAL_IndepOrDepVariableAppearsOnce` (src/NAL.c 319-337). -/
def NAL_IndepOrDepVariableAppearsOnce (n : Narsese) (term : Term) : Bool :=
  (List.range COMPOUND_TERM_SIZE_MAX).any fun i =>
    (Variable_isIndependentVariable n (term.get i) || Variable_isDependentVariable n (term.get i)) &&
      !(List.range COMPOUND_TERM_SIZE_MAX).any fun j => decide (i ≠ j) && decide (term.get i = term.get j)

/-- `NAL_DeclarativeImplicationWithoutIndependentVar` (src/NAL.c 339-349). -/
def NAL_DeclarativeImplicationWithoutIndependentVar (n : Narsese) (term : Term) : Bool :=
  (Narsese_copulaEquals n (term.get 0) IMPLICATION || Narsese_copulaEquals n (term.get 0) EQUIVALENCE) &&
    !Variable_hasVariable n term true false false

/-- The recursion of `DeclarativeImplicationWithLefthandConjunctionWithLefthandOperation` with `recurse` true on a
conjunction (src/NAL.c 364-377). -/
def conjunctionHasLefthandOperation (n : Narsese) : Nat → Term → Bool
  | 0, _ => false
  | fuel + 1, term =>
    if Narsese_copulaEquals n (term.get 0) CONJUNCTION then
      let op_or_sequence := Term_ExtractSubterm term 1
      if Narsese_isOperation n op_or_sequence then true
      else if Narsese_copulaEquals n (op_or_sequence.get 0) CONJUNCTION then
        conjunctionHasLefthandOperation n fuel op_or_sequence
      else false
    else false

/-- `DeclarativeImplicationWithLefthandConjunctionWithLefthandOperation` with `recurse` false (src/NAL.c 351-380). -/
def DeclarativeImplicationWithLefthandConjunctionWithLefthandOperation (n : Narsese) (term : Term) : Bool :=
  (Narsese_copulaEquals n (term.get 0) IMPLICATION || Narsese_copulaEquals n (term.get 0) EQUIVALENCE) &&
    Narsese_copulaEquals n (term.get 1) CONJUNCTION &&
    conjunctionHasLefthandOperation n (termDepth + 1) (Term_ExtractSubterm term 1)

/-- The conjunction of the filters (src/NAL.c 447): the statement may be derived. Evaluation stops at the first filter that
rejects. -/
def NAL_Admissible (n : Narsese) (term : Term) : R Bool :=
  if NAL_AtomAppearsTwice n term || NAL_NestedHOLStatement n term || NAL_InhOrSimHasDepVar n term then .ok false
  else do
    let j ← NAL_JunctionNotRightNested n term
    .ok (!j && !InvalidSetOp n term && !NAL_IndepOrDepVariableAppearsOnce n term &&
      !DeclarativeImplicationWithLefthandConjunctionWithLefthandOperation n term)

/-- What the parameters of `NAL_DerivedEvent` (src/NAL.c 382) other than the term and the flags are. `validation` is
`validation_concept` and `validation_cid`. -/
structure Derivation where
  conclusionOccurrence : Int
  conclusionTruth : Truth
  stamp : Stamp
  currentTime : Int
  parentPriority : ℚ
  conceptPriority : ℚ
  occurrenceTimeOffset : ℚ
  validation : Option (Nat × Int)

section
variable [Arith]

/-- The event of a derivation (src/NAL.c 434-440). -/
def Derivation.event (d : Derivation) (term : Term) : Event :=
  { Event.zero with
    term := term, type := .belief, truth := d.conclusionTruth, stamp := d.stamp, occurrenceTime := d.conclusionOccurrence
    occurrenceTimeOffset := d.occurrenceTimeOffset, creationTime := d.currentTime }

/-- The test for recycling of the concept (src/NAL.c 443). -/
def Derivation.stillValid (d : Derivation) : M Bool := do
  match d.validation with
  | none => pure true
  | some (c, cid) =>
    let s ← get
    pure (decide ((s.concept_storage c).id = cid))

/-- The last part of `NAL_DerivedEvent` (src/NAL.c 434-452): adding the event if the filters allow it. -/
def addDerived (n : Narsese) (d : Derivation) (term : Term) : M Unit := do
  if (← d.stillValid) then
    if (← NAL_Admissible n term) then
      Memory_AddEvent' n (d.event term) d.currentTime
        (fmul (fmul d.conceptPriority d.parentPriority) (Truth_Expectation d.conclusionTruth)) false false 0

/-- Adding a statement with introduced variables (src/NAL.c 388-407, 402-406, 418-421, 426-431): the recursive call of
`NAL_DerivedEvent` has `varIntro` false, so it is `addDerived`. -/
def addWithVars (n : Narsese) (d : Derivation) (original : Term) (needIndep : Bool) (needTwoIndep : Bool)
    (r : Bool × Term) : M Unit := do
  if r.1 && decide (r.2 ≠ original) && !NAL_HOLStatementComponentHasInvalidInhOrSim n (termDepth + 1) r.2 true &&
      !(needIndep && NAL_DeclarativeImplicationWithoutIndependentVar n r.2) then
    if !needTwoIndep || (List.range COMPOUND_TERM_SIZE_MAX).any (fun i => r.2.get i = nameAtom ['$', '2']) then
      addDerived n d r.2

/-- `NAL_DerivedEvent` (src/NAL.c 382-452). -/
def NAL_DerivedEvent (n : Narsese) (d : Derivation) (term : Term) (varIntro : Bool)
    (allowOnlyExtVarIntroAndTwoIndependentVars : Bool) : M Unit := do
  if varIntro && (Narsese_copulaEquals n (term.get 0) TEMPORAL_IMPLICATION ||
      Narsese_copulaEquals n (term.get 0) IMPLICATION || Narsese_copulaEquals n (term.get 0) EQUIVALENCE) then
    let ext ← Variable_IntroduceImplicationVariables n term true
    addWithVars n d term true allowOnlyExtVarIntroAndTwoIndependentVars ext
    if !allowOnlyExtVarIntroAndTwoIndependentVars then
      let int ← Variable_IntroduceImplicationVariables n term false
      addWithVars n d term true false int
    if Narsese_copulaEquals n (term.get 0) IMPLICATION || Narsese_copulaEquals n (term.get 0) EQUIVALENCE ||
        allowOnlyExtVarIntroAndTwoIndependentVars then
      return ()
  if varIntro && Narsese_copulaEquals n (term.get 0) CONJUNCTION then
    let ext ← Variable_IntroduceConjunctionVariables n term true
    addWithVars n d term false false ext
    let int ← Variable_IntroduceConjunctionVariables n term false
    addWithVars n d term false false int
    return ()
  addDerived n d term

/-- `RuleTable_Apply` (generated, src/NAL.c 118-125): all rules in order. `d` holds the parameters passed through to
`NAL_DerivedEvent`, without the truth value. -/
def RuleTable_Apply (n : Narsese) (term1 term2 : Term) (truth1 truth2 : Truth) (d : Derivation) (doublePremise : Bool) :
    M Unit :=
  nalRules.forM fun r => do
    match ruleConclusion n r term1 term2 doublePremise with
    | none => pure ()
    | some conclusion =>
      let truth ← r.conclusionTruth truth1 truth2
      NAL_DerivedEvent n { d with conclusionTruth := truth } (RuleTable_Reduce n conclusion) r.varIntro false

end
end ONA
