import Verif.Model.NAR
import Verif.Model.Reports
/-
Model of src/Shell.c: the commands of the shell. Lines are character lists; what the commands print is
not recorded in the state, see Model/Reports.lean (answers, decisions and executions are printed by the functions of src/NAR.c and
src/Decision.c).
-/
namespace ONA

/-! ### Conversions of `sscanf` -/

/-- The digits of a number as natural number. -/
def natOfDigits (s : CStr) : Nat := s.foldl (fun v c => 10 * v + (c.toNat - '0'.toNat)) 0

/-- The `%d` and `%ld` conversions, without overflow: the number and the rest. -/
def scanInt (s : CStr) : Option (Int × CStr) :=
  let s := s.dropWhile isSpace
  let neg := s.head? = some '-'
  let s := if s.head? = some '-' ∨ s.head? = some '+' then s.tail else s
  let digits := s.takeWhile Char.isDigit
  if digits = [] then none
  else some (if neg then -(natOfDigits digits : Int) else natOfDigits digits, s.dropWhile Char.isDigit)

/-- A conversion whose variable is not initialised before (src/Shell.c 342, 371, 379, 392). -/
def scanIntInit (s : CStr) : R (Int × CStr) :=
  match scanInt s with
  | some r => .ok r
  | none => .error (.ub "uninitialised number")

/-- The `%s` conversion with a maximal width. -/
def scanWord (width : Nat) (s : CStr) : CStr := ((s.dropWhile isSpace).takeWhile fun c => !isSpace c).take width

/-- The blank and the `%[^\n]` conversion with a maximal width. -/
def scanLine (width : Nat) (s : CStr) : CStr := ((s.dropWhile isSpace).takeWhile fun c => c ≠ '\n').take width

/-- Decimal digits of a natural number, at least `k` of them. -/
def decimal (k m : Nat) : CStr :=
  let d := Nat.toDigits 10 m
  List.replicate (k - d.length) '0' ++ d

/-- Rounding to the nearest integer, ties to even, of a nonnegative number. -/
def roundHalfEven (x : ℚ) : Nat :=
  let f := x.floor.toNat
  let d := x - f
  if d < 1 / 2 then f else if d > 1 / 2 then f + 1 else if f % 2 = 0 then f else f + 1

/-- The `%.kf` conversion of `printf` for `k > 0` (a negative zero is printed without sign here). -/
def formatFixed (k : Nat) (x : ℚ) : CStr :=
  let m := roundHalfEven (|x| * 10 ^ k)
  (if x < 0 then ['-'] else []) ++ decimal 1 (m / 10 ^ k) ++ ['.'] ++ decimal k (m % 10 ^ k)

/-! ### Commands -/

/-- The parameters set to a number by a command. -/
inductive Parameter where
  | anticipationConfidence
  | decisionThreshold
  | similarityDistance
  | motorBabbling
  | questionPriming
deriving DecidableEq, Repr

/-- What a line asks for. -/
inductive Command where
  /-- comments, and `*volume`, which is not modelled -/
  | nothing
  | report (r : Report)
  | cycles (k : Nat)
  | reset
  | exit
  | restrictedConceptCreation (b : Bool)
  | parameter (p : Parameter) (value : ℚ)
  | babblingOps (k : Nat)
  | currentTime (t : Int)
  | stampId (b : Int)
  | stampImport (ids : List Int)
  | setValue (value : ℚ) (granularity : Int) (termname : CStr)
  | space (granularity : Int) (termname : CStr)
  | setOpName (opID : Int) (name : CStr)
  | setOpArg (opID opArgID : Int) (text : CStr)
  | setOpStdin (opID : Int)
  | query (threshold : ℚ) (text : CStr)
  | concurrent
  | narsese (text : CStr)

/-- Trailing white space is removed (src/Shell.c 52-60). -/
def trimEnd (line : CStr) : CStr := (line.reverse.dropWhile isSpace).reverse

/-- `!strncmp(prefix, line, strlen(prefix))`, with the rest of the line. -/
def afterPrefix (pre : String) (line : CStr) : Option CStr :=
  if pre.toList.isPrefixOf line then some (line.drop pre.length) else none

/-- Splitting at commas as `strtok` does. -/
def splitCommas (s : CStr) : List CStr := ((s.splitOnP (· = ',')).filter (· ≠ []))

/-- `strtol(token, NULL, 10)`. -/
def strtol (s : CStr) : Int := match scanInt s with
  | some r => r.1
  | none => 0

/-- The ids of `*stampimport=[...]` (src/Shell.c 275-293): between the first `[` and the last `]`, at most `STAMP_SIZE`
of them. The copy goes to a buffer of 1000 bytes; without `]` a null pointer is used. -/
def stampIds (line : CStr) : R (List Int) :=
  let start := line.dropWhile (· ≠ '[')
  match (start.reverse.dropWhile (· ≠ ']')) with
  | [] => .error (.ub "stampimport: no closing bracket")
  | _ :: body =>
    let inner := body.reverse.drop 1
    if inner.length ≥ 1000 then .error (.ub "stampimport: buffer overflow")
    else .ok (((splitCommas inner).take STAMP_SIZE).map strtol)

section
variable [Arith]

/-- A conversion which leaves the variable as it is when it fails. -/
def scanParameter (p : Parameter) (s : CStr) : R Command :=
  match scanDouble s with
  | .num v _ => .ok (.parameter p (rnd v))
  | .fail => .ok .nothing
  | .unmodelled => .error (.ub "number format not modelled")

/-- The case distinction of `Shell_ProcessInput` (src/Shell.c 62-421) in its order; `line` is trimmed. -/
def parseLine (line : CStr) : R Command :=
  if line = [] then .ok (.cycles 1)
  else if afterPrefix "//" line ≠ none then .ok .nothing
  else if line = "*reset".toList then .ok .reset
  else if afterPrefix "*restrictedconceptcreation=true" line ≠ none then .ok (.restrictedConceptCreation true)
  else if afterPrefix "*restrictedconceptcreation=false" line ≠ none then .ok (.restrictedConceptCreation false)
  else if afterPrefix "*volume=" line ≠ none then .ok .nothing
  else match afterPrefix "*anticipationconfidence=" line with
  | some s => scanParameter .anticipationConfidence s
  | none => match afterPrefix "*decisionthreshold=" line with
  | some s => scanParameter .decisionThreshold s
  | none => match afterPrefix "*similaritydistance=" line with
  | some s => scanParameter .similarityDistance s
  | none =>
  if line = "*stats".toList then .ok (.report .stats)
  else if line = "*inverted_atom_index".toList then .ok (.report .invertedAtomIndex)
  else if line = "*opconfig".toList then .ok (.report .opConfig)
  else if line = "*concepts".toList then .ok (.report .concepts)
  else if line = "*cycling_belief_events".toList then .ok (.report .beliefEvents)
  else if line = "*cycling_goal_events".toList then .ok (.report .goalEvents)
  else if line = "quit".toList then .ok .exit
  else match afterPrefix "*babblingops=" line with
  | some s => match scanInt s with
    | some (k, _) => if k < 0 then .error (.ub "negative number of operations not modelled") else .ok (.babblingOps k.toNat)
    | none => .ok .nothing
  | none => match afterPrefix "*currenttime=" line with
  | some s => match scanInt s with
    | some (t, _) => .ok (.currentTime t)
    | none => .ok .nothing
  | none => match afterPrefix "*stampid=" line with
  | some s => match scanInt s with
    | some (b, _) => .ok (.stampId b)
    | none => .ok .nothing
  | none =>
  if afterPrefix "*stampimport=[" line ≠ none then do
    let ids ← stampIds line
    .ok (.stampImport ids)
  else if line = "*motorbabbling=false".toList then .ok (.parameter .motorBabbling 0)
  else if line = "*motorbabbling=true".toList then .ok (.parameter .motorBabbling (rnd (2 / 10)))
  else match afterPrefix "*motorbabbling=" line with
  | some s => scanParameter .motorBabbling s
  | none => match afterPrefix "*questionpriming=" line with
  | some s => scanParameter .questionPriming s
  | none => match afterPrefix "*setvalue " line with
  | some s => match scanDouble s with
    | .num v rest => match scanInt rest with
      | some (g, rest) => .ok (.setValue (rnd v) g (scanWord ATOMIC_TERM_LEN_MAX rest))
      | none => .ok (.setValue (rnd v) (-1) [])
    | .fail => .ok (.setValue 0 (-1) [])
    | .unmodelled => .error (.ub "number format not modelled")
  | none => match afterPrefix "*space " line with
  | some s => do
    let (g, rest) ← scanIntInit s
    .ok (.space g (scanWord ATOMIC_TERM_LEN_MAX rest))
  | none => match afterPrefix "*setopname " line with
  | some s => do
    let (k, rest) ← scanIntInit s
    .ok (.setOpName k (scanWord ATOMIC_TERM_LEN_MAX rest))
  | none => match afterPrefix "*setoparg " line with
  | some s => do
    let (k, rest) ← scanIntInit s
    let (j, rest) ← scanIntInit rest
    .ok (.setOpArg k j (scanLine NARSESE_LEN_MAX rest))
  | none => match afterPrefix "*query " line with
  | some s => match scanDouble s with
    | .num v rest => .ok (.query (rnd v) (scanLine NARSESE_LEN_MAX rest))
    | .fail => .error (.ub "uninitialised number")
    | .unmodelled => .error (.ub "number format not modelled")
  | none => match afterPrefix "*setopstdin " line with
  | some s => do
    let (k, _) ← scanIntInit s
    .ok (.setOpStdin k)
  | none =>
  if line.all Char.isDigit then
    if natOfDigits line < 2 ^ 31 then .ok (.cycles (natOfDigits line)) else .error (.ub "number of steps")
  else if afterPrefix "*concurrent" line ≠ none then .ok .concurrent
  else .ok (.narsese line)

/-! ### Effects -/

/-- `Shell_op_nop` (src/Shell.c 27-30). -/
def Shell_op_nop (_ : Term) : Feedback := ⟨Substitution.zero, false⟩

/-- The names of `Shell_NARInit` (src/Shell.c 37-46). -/
def shellOperations : List CStr :=
  ["^left", "^right", "^up", "^down", "^say", "^pick", "^drop", "^go", "^activate", "^deactivate"].map String.toList

/-- Registering operations which do nothing. -/
def addNops : List CStr → Narsese → Sys → R (Narsese × Sys)
  | [], n, s => .ok (n, s)
  | name :: l, n, s => do
    let (n, s) ← NAR_AddOperation n name Shell_op_nop s
    addNops l n s

/-- `Shell_NARInit` (src/Shell.c 31-48) with given sizes; `OPERATIONS_MAX` is 10. -/
def Shell_NARInit_sizes (sz : MemorySizes) (atoms : Nat) (s : Sys) : R (Narsese × Sys) := do
  let (n, s) ← NAR_INIT_sizes sz atoms s
  addNops shellOperations n s

/-- Setting a parameter. -/
def Sys.setParameter (s : Sys) : Parameter → ℚ → Sys
  | .anticipationConfidence, v => { s with ANTICIPATION_CONFIDENCE := v }
  | .decisionThreshold, v => { s with DECISION_THRESHOLD := v }
  | .similarityDistance, v => { s with similarity_distance := v }
  | .motorBabbling, v => { s with MOTOR_BABBLING_CHANCE := v }
  | .questionPriming, v => { s with QUESTION_PRIMING := v }

/-- The stamp with the given ids. -/
def importedStamp (ids : List Int) : Stamp := ⟨fun i => ids.getD i 0⟩

/-- `*setvalue` (src/Shell.c 312-338); the name with the value appended must fit in 33 bytes. -/
def Shell_setValue (n : Narsese) (value : ℚ) (granularity : Int) (termname : CStr) : R Narsese := do
  cassert (decide (granularity ≥ 1 ∧ granularity ≤ 1000)) "Granularity out of bounds or parameter order not respected!"
  let digits := if granularity ≤ 10 then 1 else if granularity ≤ 100 then 2 else 3
  let name := termname ++ (if termname = [] then [] else ['_']) ++ formatFixed digits value
  if name.length > ATOMIC_TERM_LEN_MAX then .error (.ub "setvalue: buffer overflow")
  else do
    let (i, n) ← Narsese_AtomicTermIndex n name
    Narsese_setAtomValue n (toAtom i) value termname

/-- The loop of `*space` (src/Shell.c 348-354) for the remaining values; the value goes through its text with 6 digits. -/
def Shell_setSpace (granularity : Int) (termname : CStr) : List Nat → Narsese → R Narsese
  | [], n => .ok n
  | i :: l, n => do
    let fval := rnd ((i : ℚ) / (granularity : ℚ))
    let n ← Shell_setValue n (rnd ((roundHalfEven (fval * 10 ^ 6) : ℚ) / 10 ^ 6)) granularity termname
    Shell_setSpace granularity termname l n

/-- `*setopname` (src/Shell.c 364-380): the slot of an existing operation of this name and all after it lose their names. -/
def Shell_setOpName (opID : Int) (name : CStr) (n : Narsese) (s : Sys) : R (Narsese × Sys) := do
  cassert (decide (s.concepts.itemsAmount = 0)) "Operators can only be registered right after initialization / reset!"
  cassert (decide (opID ≥ 1 ∧ opID ≤ OPERATIONS_MAX)) "Operator index out of bounds, it can only be between 1 and OPERATIONS_MAX!"
  let (newTerm, n) ← Narsese_AtomicTerm n name
  let slot := (opID - 1).toNat
  let cleared : Nat → Bool := fun k =>
    decide (k < OPERATIONS_MAX) && (List.range (k + 1)).any fun i => decide ((s.operations i).term = newTerm)
  let operations : Nat → Operation := fun k =>
    let o := s.operations k
    if cleared k then { o with term := Term.zero } else o
  let o := operations slot
  let o : Operation := { o with term := newTerm, action := some (o.action.getD Shell_op_nop) }
  .ok (n, { s with operations := upd operations slot o })

/-- `*setoparg` (src/Shell.c 382-393). -/
def Shell_setOpArg (opID opArgID : Int) (text : CStr) (n : Narsese) (s : Sys) : R (Narsese × Sys) := do
  cassert (decide (opID ≥ 1 ∧ opID ≤ OPERATIONS_MAX)) "Operator index out of bounds, it can only be between 1 and OPERATIONS_MAX!"
  cassert (decide (opArgID ≥ 1 ∧ opArgID ≤ OPERATIONS_BABBLE_ARGS_MAX))
    "Operator arg index out of bounds, it can only be between 1 and OPERATIONS_BABBLE_ARGS_MAX!"
  let (t, n) ← Narsese_Term n text
  let slot := (opID - 1).toNat
  let o := s.operations slot
  .ok (n, { s with operations := upd s.operations slot { o with arguments := upd o.arguments (opArgID - 1).toNat t } })

/-- `*setopstdin` (src/Shell.c 405-410): the index is not checked. -/
def Shell_setOpStdin (opID : Int) (s : Sys) : R Sys :=
  if opID ≥ 1 ∧ opID ≤ OPERATIONS_MAX then
    let slot := (opID - 1).toNat
    let o := s.operations slot
    .ok { s with operations := upd s.operations slot { o with stdinOutput := true } }
  else .error (.ub "setopstdin: out of bounds")

/-- The command carried out (src/Shell.c 62-421); `*reset` as `Shell_Start` does it (src/Shell.c 440-443). -/
def Command.run (sz : MemorySizes) (atoms : Nat) (fuel : Fuel) (n : Narsese) (s : Sys) : Command → R (Narsese × Sys)
  | .nothing => .ok (n, s)
  | .report r => do
    let _ ← r.print n s
    .ok (n, s)
  | .exit => .ok (n, s)
  | .cycles k => do
    let (_, s) ← NAR_Cycles n fuel k s
    .ok (n, s)
  | .reset => Shell_NARInit_sizes sz atoms s
  | .restrictedConceptCreation b => .ok (n, { s with RESTRICTED_CONCEPT_CREATION := b })
  | .parameter p v => .ok (n, s.setParameter p v)
  | .babblingOps k => .ok (n, { s with BABBLING_OPS := k })
  | .currentTime t => .ok (n, { s with currentTime := t })
  | .stampId b => .ok (n, { s with event := { s.event with base := b } })
  | .stampImport ids => .ok (n, { s with event := { s.event with importstamp := importedStamp ids } })
  | .setValue v g name => do
    let n ← Shell_setValue n v g name
    .ok (n, s)
  | .space g name => do
    cassert (decide (g ≥ 1 ∧ g ≤ 1000)) "Granularity out of bounds!"
    let n ← Shell_setSpace g name (List.range g.toNat) n
    .ok (n, s)
  | .setOpName k name => Shell_setOpName k name n s
  | .setOpArg k j text => Shell_setOpArg k j text n s
  | .setOpStdin k => do
    let s ← Shell_setOpStdin k s
    .ok (n, s)
  | .query threshold text => do
    cassert (decide (threshold ≥ 0 ∧ threshold ≤ 1)) "Query truth exp out of bounds!"
    NAR_AddInputNarsese2 n fuel text true threshold s
  | .concurrent => .ok (n, { s with currentTime := s.currentTime - 1 })
  | .narsese text => NAR_AddInputNarsese n fuel text s

/-- `Shell_ProcessInput` (src/Shell.c 50-425) for a line, and whether the shell goes on. -/
def Shell_ProcessInput (sz : MemorySizes) (atoms : Nat) (fuel : Fuel) (n : Narsese) (s : Sys) (line : CStr) :
    R (Bool × Narsese × Sys) := do
  let command ← parseLine (trimEnd line)
  let (n, s) ← command.run sz atoms fuel n s
  .ok (match command with
    | .exit => (false, n, s)
    | _ => (true, n, s))

/-- The loop of `Shell_Start` (src/Shell.c 430-450) over the lines of the input (`fgets` splits lines of more than 1022
characters, these are not modelled). -/
def shellLoop (sz : MemorySizes) (atoms : Nat) (fuel : Fuel) : List CStr → Narsese → Sys → R (Narsese × Sys)
  | [], n, s => .ok (n, s)
  | line :: rest, n, s => do
    let (continues, n, s) ← Shell_ProcessInput sz atoms fuel n s line
    if continues then shellLoop sz atoms fuel rest n s else .ok (n, s)

/-- `Shell_Start` (src/Shell.c 427-451). -/
def Shell_Start (sz : MemorySizes) (atoms : Nat) (fuel : Fuel) (lines : List CStr) (s : Sys) : R (Narsese × Sys) := do
  let (n, s) ← Shell_NARInit_sizes sz atoms s
  shellLoop sz atoms fuel lines n s

end
end ONA
