import Verif.Model.Term
import Verif.Model.HashTable
import Verif.Model.Arith
/-
Model of src/Narsese.c, part 1: the table of atoms, and the queries on atoms and terms.
A C string is a `List Char` without its terminating NUL; each `Char` stands for one byte.
-/
namespace ONA

abbrev CStr := List Char

/-- The `i`-th byte of a NUL-padded buffer holding a string. -/
def CStr.byte (s : CStr) (i : Nat) : BitVec 8 := BitVec.ofNat 8 (s.getD i '\x00').toNat

/-- The `k`-th little-endian 64-bit word of a NUL-padded buffer holding a string. -/
def CStr.word (s : CStr) (k : Nat) : BitVec 64 :=
  s.byte (8 * k + 7) ++ s.byte (8 * k + 6) ++ s.byte (8 * k + 5) ++ s.byte (8 * k + 4) ++
  s.byte (8 * k + 3) ++ s.byte (8 * k + 2) ++ s.byte (8 * k + 1) ++ s.byte (8 * k)

/-- `strncpy(dst, src, ATOMIC_TERM_LEN_MAX-1)` into a zeroed buffer (src/Narsese.c 302-303, 314, 647-648, 858). -/
def truncName (s : CStr) : CStr := s.take (ATOMIC_TERM_LEN_MAX - 1)

/-- `Narsese_StringHash` (src/Narsese.c 644-652), 32 / 8 = 4 pieces. -/
def Narsese_StringHash (name : CStr) : BitVec 64 :=
  Globals_Hash ((List.range 4).map (truncName name).word)

/-- The static state of src/Narsese.c (27-40, 293-297). Names and values are indexed by atom - 1. `capacity` is
`ATOMS_MAX` (and `ATOMS_HASHTABLE_BUCKETS`, which is defined to be the same number). -/
structure Narsese where
  atomNames : Nat → CStr
  atomValues : Nat → ℚ
  atomHasValue : Nat → Bool
  atomMeasurementNames : Nat → CStr
  HTatoms : HashTable Nat Nat
  term_index : Nat
  SELF : Atom
  capacity : Nat

/-- The callbacks of `HTatoms` (src/Narsese.c 662): keys are pointers to the name slots. -/
def Narsese.ops (n : Narsese) : KeyOps Nat CStr where
  deref := n.atomNames
  equal a b := a == b
  hash s := (Narsese_StringHash s).toInt

/-- `Narsese_AtomicTermIndex` (src/Narsese.c 300-319). The stored values are the indices cast to pointers; they are
positive, so `NULL` means absent. -/
def Narsese_AtomicTermIndex (n : Narsese) (name : CStr) : R (Nat × Narsese) := do
  let blockname := truncName name
  match (← n.HTatoms.get n.ops blockname) with
  | some v => .ok (v, n)
  | none =>
    cassert (decide (n.term_index < n.capacity)) "Too many terms for NAR"
    let ret_index := n.term_index + 1
    let n := { n with atomNames := upd n.atomNames n.term_index (truncName name) }
    let ht ← n.HTatoms.set n.ops n.term_index ret_index
    .ok (ret_index, { n with HTatoms := ht, term_index := n.term_index + 1 })

/-- `Narsese_CopulaIndex` (src/Narsese.c 321-326). -/
def Narsese_CopulaIndex (n : Narsese) (name : Char) : R (Nat × Narsese) := Narsese_AtomicTermIndex n [name]

/-- Conversion of an index to `Atom` (`unsigned short`): `ret.atoms[0] = number`. -/
def toAtom (i : Nat) : Atom := BitVec.ofNat 16 i

/-- `Narsese_AtomicTerm` (src/Narsese.c 458-464). -/
def Narsese_AtomicTerm (n : Narsese) (name : CStr) : R (Term × Narsese) := do
  let (number, n) ← Narsese_AtomicTermIndex n name
  .ok (Term.zero.put 0 (toAtom number), n)

/-- Indexing a list of names in order (used for the loops of `Narsese_INIT`). -/
def Narsese.indexAll (n : Narsese) : List CStr → R Narsese
  | [] => .ok n
  | s :: l => do
    let (_, n) ← Narsese_AtomicTermIndex n s
    n.indexAll l

/-- The variable names indexed first (src/Narsese.c 672-681): `#i`, `$i`, `?i` for `i` in 1..9. -/
def variableNames : List CStr :=
  ['1', '2', '3', '4', '5', '6', '7', '8', '9'].flatMap fun i => [['#', i], ['$', i], ['?', i]]

/-- `Narsese_RuleTableVars` (src/Narsese.h 54). -/
def Narsese_RuleTableVars : List Char := ['A', 'B', 'C', 'M', 'R', 'S', 'P', 'X', 'Y', 'Z']

/-- `Narsese_CanonicalCopulas` (src/Narsese.h 55). -/
def Narsese_CanonicalCopulas : List Char :=
  ['@', '*', '&', '|', ';', ':', '=', '$', '\'', '"', '/', '\\', '.', '-', '%', '#', '~', '+', '!', '?', '^', '_', ',']

/-- All names indexed by `Narsese_INIT` before `SELF` (src/Narsese.c 671-696). -/
def initialNames : List CStr :=
  variableNames ++ Narsese_RuleTableVars.map (fun c => [c]) ++ [['O', 'p', '1'], ['O', 'p', '2']] ++
    Narsese_CanonicalCopulas.map (fun c => [c])

/-- The cleared state (src/Narsese.c 662-670). -/
def Narsese.blank (capacity : Nat) (ht : HashTable Nat Nat) : Narsese :=
  { atomNames := fun _ => [], atomValues := fun _ => 0, atomHasValue := fun _ => false
    atomMeasurementNames := fun _ => [], HTatoms := ht, term_index := 0, SELF := 0, capacity := capacity }

/-- `Narsese_INIT` (src/Narsese.c 660-699), for a given `ATOMS_MAX`. -/
def Narsese.initWith (capacity : Nat) : R Narsese := do
  let ht ← HashTable.init capacity capacity
  let n ← (Narsese.blank capacity ht).indexAll initialNames
  let (self, n) ← Narsese_AtomicTermIndex n ['S', 'E', 'L', 'F']
  .ok { n with SELF := toAtom self }

/-- `Narsese_INIT` (src/Narsese.c 660-699). -/
def Narsese_INIT : R Narsese := Narsese.initWith ATOMS_MAX

/-! ### Canonical copulas (src/Narsese.h 56-78) -/

def PRODUCT := '*'
def EXT_INTERSECTION := '&'
def INT_INTERSECTION := '|'
def CONJUNCTION := ';'
def INHERITANCE := ':'
def SIMILARITY := '='
def TEMPORAL_IMPLICATION := '$'
def INT_SET := '\''
def EXT_SET := '"'
def EXT_IMAGE1 := '/'
def INT_IMAGE1 := '\\'
def SET_ELEMT := '.'
def EXT_DIFFERENCE := '-'
def EXT_IMAGE2 := '%'
def INT_IMAGE2 := '#'
def INT_DIFFERENCE := '~'
def SEQUENCE := '+'
def NEGATION := '!'
def IMPLICATION := '?'
def EQUIVALENCE := '^'
def DISJUNCTION := '_'
def HAS_CONTINUOUS_PROPERTY := ','
def SET_TERMINATOR := '@'

/-! ### Queries -/

/-- `Narsese_atomNames[(int) atom-1]` for `atom > 0`. -/
def Narsese.nameOf (n : Narsese) (atom : Atom) : CStr := n.atomNames (atom.toNat - 1)

/-- `Narsese_copulaEquals` (src/Narsese.c 701-704). -/
def Narsese_copulaEquals (n : Narsese) (atom : Atom) (name : Char) : Bool :=
  decide (atom ≠ 0) && decide (n.nameOf atom = [name])

/-- `Narsese_isOperator` (src/Narsese.c 706-709): the name starts with `^` and has a second character. -/
def Narsese_isOperator (n : Narsese) (atom : Atom) : Bool :=
  decide (atom ≠ 0) && decide ((n.nameOf atom).head? = some '^') && decide (2 ≤ (n.nameOf atom).length)

/-- `Variable_isIndependentVariable` (src/Variable.c 29-32). -/
def Variable_isIndependentVariable (n : Narsese) (atom : Atom) : Bool :=
  decide (atom ≠ 0) && decide (2 ≤ (n.nameOf atom).length) && decide ((n.nameOf atom).head? = some '$')

/-- `Variable_isDependentVariable` (src/Variable.c 34-37). -/
def Variable_isDependentVariable (n : Narsese) (atom : Atom) : Bool :=
  decide (atom ≠ 0) && decide (2 ≤ (n.nameOf atom).length) && decide ((n.nameOf atom).head? = some '#')

/-- `Variable_isQueryVariable` (src/Variable.c 39-42). -/
def Variable_isQueryVariable (n : Narsese) (atom : Atom) : Bool :=
  decide (atom ≠ 0) && decide (2 ≤ (n.nameOf atom).length) && decide ((n.nameOf atom).head? = some '?')

/-- `Variable_isVariable` (src/Variable.c 44-47). -/
def Variable_isVariable (n : Narsese) (atom : Atom) : Bool :=
  Variable_isIndependentVariable n atom || Variable_isDependentVariable n atom || Variable_isQueryVariable n atom

/-- `Variable_hasVariable` (src/Variable.c 49-60). -/
def Variable_hasVariable (n : Narsese) (term : Term) (independent dependent query : Bool) : Bool :=
  (List.range COMPOUND_TERM_SIZE_MAX).any fun i =>
    let atom := term.get i
    (independent && Variable_isIndependentVariable n atom) || (dependent && Variable_isDependentVariable n atom) ||
      (query && Variable_isQueryVariable n atom)

/-- `Narsese_IsSimpleAtom` (src/Narsese.c 784-790): the name starts with `^`, a letter or a digit. -/
def Narsese_IsSimpleAtom (n : Narsese) (atom : Atom) : Bool :=
  decide (atom ≠ 0) &&
    match (n.nameOf atom).head? with
    | none => false
    | some c => decide (c = '^') || (decide ('a' ≤ c) && decide (c ≤ 'z')) || (decide ('A' ≤ c) && decide (c ≤ 'Z')) ||
        (decide ('0' ≤ c) && decide (c ≤ '9'))

/-- `Narsese_HasSimpleAtom` (src/Narsese.c 792-802). -/
def Narsese_HasSimpleAtom (n : Narsese) (term : Term) : Bool :=
  (List.range COMPOUND_TERM_SIZE_MAX).any fun i => Narsese_IsSimpleAtom n (term.get i)

/-- `Narsese_isOperation` (src/Narsese.c 711-717). -/
def Narsese_isOperation (n : Narsese) (term : Term) : Bool :=
  Narsese_isOperator n (term.get 0) ||
    (Narsese_copulaEquals n (term.get 0) INHERITANCE && Narsese_copulaEquals n (term.get 1) PRODUCT &&
      Narsese_isOperator n (term.get 2) && Narsese_copulaEquals n (term.get 3) EXT_SET)

/-- `Narsese_isExecutableOperation` (src/Narsese.c 719-722). -/
def Narsese_isExecutableOperation (n : Narsese) (term : Term) : Bool :=
  Narsese_isOperation n term &&
    (Narsese_isOperator n (term.get 0) || (decide (term.get 7 = n.SELF) || Variable_isVariable n (term.get 7)))

/-- `Narsese_getOperationAtom` (src/Narsese.c 724-744). The recursive call is on a non-sequence, so it is written out. -/
def Narsese_getOperationAtom (n : Narsese) (term : Term) : Atom :=
  let nonSequence (term : Term) : Atom :=
    if Narsese_isOperator n (term.get 0) then term.get 0
    else if Narsese_isOperation n term then term.get 2
    else 0
  if Narsese_copulaEquals n (term.get 0) SEQUENCE then
    let potential_operator := Term_ExtractSubterm term 2
    if Narsese_copulaEquals n (potential_operator.get 0) SEQUENCE then 0
    else nonSequence potential_operator
  else nonSequence term

/-- Two terms below a copula: `ret.atoms[0] = copula; Term_OverrideSubterm(&ret,1,a) && Term_OverrideSubterm(&ret,2,b)`
(src/Narsese.c 452-454, src/Inference.c 59-61, src/Cycle.c 515-580). Returns success and the term as left behind. -/
def buildCompound (copula : Atom) (a b : Term) : Bool × Term :=
  let ret := Term.zero.put 0 copula
  let (ok, ret) := Term_OverrideSubterm ret 1 a
  if ok then Term_OverrideSubterm ret 2 b else (false, ret)

/-- The atom of a canonical copula. `Narsese_CopulaIndex(c)` returns it without changing the state, in every
state reachable after `Narsese_INIT` (theorem `C32_copula_index`), so later layers use this constant. -/
def copulaAtom (c : Char) : Atom := toAtom (initialNames.idxOf [c] + 1)

/-- `Narsese_Sequence` (src/Narsese.c 450-456). -/
def Narsese_Sequence (a b : Term) : Bool × Term :=
  let (success, ret) := buildCompound (copulaAtom SEQUENCE) a b
  (success, if success then ret else Term.zero)

/-- `Narsese_OperationSequenceAppendLeftNested` (src/Narsese.c 823-850): success and the new `*start`. The fuel bounds
the depth of the term, which is at most 6. -/
def Narsese_OperationSequenceAppendLeftNested (n : Narsese) : Nat → Term → Term → Bool × Term
  | 0, start, _ => (true, start)
  | fuel + 1, start, sequence =>
    if Narsese_copulaEquals n (sequence.get 0) SEQUENCE then
      let (success1, start) := Narsese_OperationSequenceAppendLeftNested n fuel start (Term_ExtractSubterm sequence 1)
      if !success1 then (false, start)
      else Narsese_OperationSequenceAppendLeftNested n fuel start (Term_ExtractSubterm sequence 2)
    else if Narsese_isOperation n sequence then
      if start.get 0 = 0 then (true, sequence) else Narsese_Sequence start sequence
    else (true, start)

/-- Recursion bound for functions descending into subterms: positions at depth 6 and below are outside a term. -/
def termDepth : Nat := 7

/-- `Narsese_getOperationTerm` (src/Narsese.c 746-768). -/
def Narsese_getOperationTerm (n : Narsese) : Nat → Term → Term
  | 0, _ => Term.zero
  | fuel + 1, term =>
    if Narsese_copulaEquals n (term.get 0) TEMPORAL_IMPLICATION then
      Narsese_getOperationTerm n fuel (Term_ExtractSubterm term 1)
    else if Narsese_copulaEquals n (term.get 0) SEQUENCE then
      let potential_operator := Term_ExtractSubterm term 2
      if !Narsese_isOperation n potential_operator then Term.zero
      else
        let (ok, potential_op_seq) := Narsese_OperationSequenceAppendLeftNested n termDepth Term.zero term
        if !ok then Term.zero else potential_op_seq
    else if Narsese_isOperation n term then term
    else Term.zero

/-- `Narsese_GetPreconditionWithoutOp` (src/Narsese.c 770-782). -/
def Narsese_GetPreconditionWithoutOp (n : Narsese) : Nat → Term → Term
  | 0, precondition => precondition
  | fuel + 1, precondition =>
    if Narsese_copulaEquals n (precondition.get 0) SEQUENCE then
      let potential_op := Term_ExtractSubterm precondition 2
      if Narsese_isOperation n potential_op then
        Narsese_GetPreconditionWithoutOp n fuel (Term_ExtractSubterm precondition 1)
      else precondition
    else precondition

/-- `Narsese_HasOperation` (src/Narsese.c 804-821). -/
def Narsese_HasOperation (n : Narsese) (term : Term) : Bool :=
  if Narsese_getOperationAtom n term ≠ 0 then true
  else if Narsese_copulaEquals n (term.get 0) SEQUENCE then
    (List.range COMPOUND_TERM_SIZE_MAX).any fun i => Narsese_isOperator n (term.get i)
  else false

/-- `Narsese_SequenceLength` (src/Narsese.c 873-885). -/
def Narsese_SequenceLength (n : Narsese) : Nat → Term → Nat
  | 0, _ => 1
  | fuel + 1, sequence =>
    if Narsese_copulaEquals n (sequence.get 0) SEQUENCE then
      Narsese_SequenceLength n fuel (Term_ExtractSubterm sequence 1) +
        Narsese_SequenceLength n fuel (Term_ExtractSubterm sequence 2)
    else 1

/-- `Narsese_setAtomValue` (src/Narsese.c 852-859). -/
def Narsese_setAtomValue (n : Narsese) (atom : Atom) (value : ℚ) (measurementName : CStr) : R Narsese := do
  cassert (decide (atom ≠ 0)) "Narsese_setAtomValue: Atom was zero"
  let i := atom.toNat - 1
  .ok { n with atomValues := upd n.atomValues i value
               atomHasValue := upd n.atomHasValue i true
               atomMeasurementNames := upd n.atomMeasurementNames i (truncName measurementName) }

/-- `Narsese_hasAtomValue` (src/Narsese.c 861-865). -/
def Narsese_hasAtomValue (n : Narsese) (atom : Atom) : R Bool := do
  cassert (decide (atom ≠ 0)) "Narsese_hasAtomValue: Atom was zero"
  .ok (n.atomHasValue (atom.toNat - 1))

/-- `Narsese_getAtomValue` (src/Narsese.c 867-871). -/
def Narsese_getAtomValue (n : Narsese) (atom : Atom) : R ℚ := do
  cassert (decide (atom ≠ 0)) "Narsese_getAtomValue: Atom was zero"
  .ok (n.atomValues (atom.toNat - 1))

end ONA
