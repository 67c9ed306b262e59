import Verif.Model.Variable
import Verif.Model.Truth
/-
Model of src/Narsese.c, part 2: the parser and the printer. Strings are lists of bytes without the terminating NUL.
-/
namespace ONA

/-! ### Copula replacement and tokens -/

/-- One step of the loop of `replaceWithCanonicalCopulas` (src/Narsese.c 50-191) at character `c` with `rest` following:
the text appended to the result and the remaining input. The bounds `i+1 < n` and `i+2 < n` hold exactly when the
characters looked at exist. -/
def replaceStep (c : Char) (rest : CStr) : CStr × CStr :=
  if c = ',' then ([' '], rest)
  else if c = '[' then (['(', '\'', ' '], rest)
  else if c = '{' then (['(', '"', ' '], rest)
  else if c = '}' ∨ c = ']' ∨ c = '>' then ([')'], rest)
  else if c = '<' ∧ rest.head? ≠ some '-' ∧ rest.head? ≠ some '=' then (['('], rest)
  else match c, rest with
    | '&', '/' :: r => (['+'], r)
    | '&', '&' :: r => ([';'], r)
    | '|', '|' :: r => (['_'], r)
    | '/', '1' :: r => (['/'], r)
    | '/', '2' :: r => (['%'], r)
    | '\\', '1' :: r => (['\\'], r)
    | '\\', '2' :: r => (['#'], r)
    | '-', '-' :: '>' :: r => ([':'], r)
    | '|', '-' :: '>' :: r => ([','], r)
    | '<', '-' :: '>' :: r => (['='], r)
    | '=', '/' :: '>' :: r => (['$'], r)
    | '=', '=' :: '>' :: r => (['?'], r)
    | '<', '=' :: '>' :: r => (['^'], r)
    | '-', '-' :: x :: r => (['!'], x :: r)
    | c, rest => ([c], rest)

/-- The loop of `replaceWithCanonicalCopulas` (src/Narsese.c 50-191); each step consumes at least one character. -/
def replaceLoop : Nat → CStr → CStr
  | fuel + 1, c :: rest => (replaceStep c rest).1 ++ replaceLoop fuel (replaceStep c rest).2
  | _, _ => []

/-- `replaceWithCanonicalCopulas` (src/Narsese.c 43-194) without its length check. -/
def replaceCopulas (s : CStr) : CStr := replaceLoop s.length s

/-- `Narsese_Expand` (src/Narsese.c 196-224): the buffer is filled with blanks, so skipped cells are blanks. -/
def Narsese_Expand (s : CStr) : CStr :=
  (replaceCopulas s).flatMap fun c => if c = '(' ∨ c = ')' then [' ', c, ' '] else [c]

/-- The `strtok(…, " ")` loop (src/Narsese.c 252-259): `cur` is the token being read. -/
def strtokLoop (cur : CStr) : CStr → List CStr
  | [] => if cur = [] then [] else [cur]
  | c :: s => if c = ' ' then (if cur = [] then strtokLoop [] s else cur :: strtokLoop [] s) else strtokLoop (cur ++ [c]) s

/-- The tokens of a string (src/Narsese.c 252-259). -/
def strtok (s : CStr) : List CStr := strtokLoop [] s

/-- `skipCompound` (src/Narsese.c 227-246) on the tokens from index `i` on; the result is what follows. -/
def skipCompound (cnt : Int) : List CStr → List CStr
  | [] => []
  | t :: rest =>
    let cnt := if t = ['('] then cnt + 1 else if t = [')'] then cnt - 1 else cnt
    if cnt = 0 then rest else skipCompound cnt rest

/-- A token consisting of one canonical copula character (src/Narsese.c 264-270). -/
def isCopulaToken (t : CStr) : Bool := Narsese_CanonicalCopulas.any fun c => t = [c]

/-- The loop of `Narsese_PrefixTransform` (src/Narsese.c 260-289) on the tokens from index `i` on. It never looks back,
and never changes the number of tokens; the bound `i < nt-2` says that at least two tokens follow. -/
def prefixLoop : Nat → List CStr → List CStr
  | fuel + 1, t :: rest =>
    if rest.length < 2 then t :: rest
    else if t = ['('] ∧ isCopulaToken (rest.headD []) = false then
      match skipCompound 0 rest with
      | [] => t :: prefixLoop fuel rest
      | copula :: after =>
        t :: prefixLoop fuel (copula.take 1 :: (rest.take (rest.length - (after.length + 1)) ++ after))
    else t :: prefixLoop fuel rest
  | _, tokens => tokens

/-- `Narsese_PrefixTransform` (src/Narsese.c 248-291). The token array has `NARSESE_LEN_MAX + 1` cells, the last of which
has to stay NULL for the loop in `Narsese_Term` (src/Narsese.c 369). -/
def Narsese_PrefixTransform (expanded : CStr) : R (List CStr) :=
  let tokens := strtok expanded
  if tokens.length > NARSESE_LEN_MAX then .error (.ub "Narsese_PrefixTransform: tokens") else
  .ok (prefixLoop tokens.length tokens)

/-! ### Building the term -/

/-- `bintree->atoms[tree_index-1] = atom` (src/Narsese.c 338, 354, 358). -/
def Term.setNode (t : Term) (tree_index : Nat) (atom : Nat) : R Term :=
  if tree_index - 1 < COMPOUND_TERM_SIZE_MAX then .ok (t.put (tree_index - 1) (toAtom atom))
  else .error (.ub "buildBinaryTree: atoms")

/-- `buildBinaryTree` (src/Narsese.c 329-360) on the tokens from index `i1` on. A compound whose index is outside the
array is an out of bounds write, so the recursion ends after 7 levels. -/
def buildBinaryTree : Nat → Narsese → Term → List CStr → Nat → R (Term × Narsese)
  | 0, _, _, _, _ => .error .fuel
  | _ + 1, _, _, [], _ => .error (.ub "buildBinaryTree: NULL token")
  | fuel + 1, n, bintree, t :: rest, tree_index =>
    if t = ['('] then
      match rest with
      | [] => .error (.ub "buildBinaryTree: NULL copula")
      | copula :: args => do
        let i2 := skipCompound 0 args
        let (atom, n) ← Narsese_AtomicTermIndex n copula
        let bintree ← bintree.setNode tree_index atom
        let (bintree, n) ← (if args = [] then .ok (bintree, n) else buildBinaryTree fuel n bintree args (tree_index * 2) :
          R (Term × Narsese))
        if i2 = [] then .ok (bintree, n) else buildBinaryTree fuel n bintree i2 (tree_index * 2 + 1)
    else do
      cassert (decide (tree_index - 1 < COMPOUND_TERM_SIZE_MAX)) "COMPOUND_TERM_SIZE_MAX too small"
      if t ≠ [')'] then do
        let (atom, n) ← Narsese_AtomicTermIndex n t
        let bintree ← bintree.setNode tree_index atom
        .ok (bintree, n)
      else do
        let (atom, n) ← Narsese_CopulaIndex n SET_TERMINATOR
        let bintree ← bintree.setNode tree_index atom
        .ok (bintree, n)

/-- `Narsese_Term` (src/Narsese.c 362-374), with the length check of `replaceWithCanonicalCopulas` (48). -/
def Narsese_Term (n : Narsese) (narsese : CStr) : R (Term × Narsese) := do
  cassert (decide (narsese.length + 3 ≤ NARSESE_LEN_MAX)) "NARSESE_LEN_MAX too small"
  let tokens ← Narsese_PrefixTransform (Narsese_Expand narsese)
  let (t, n) ← buildBinaryTree 8 n Term.zero tokens 1
  let t ← Variable_Normalize n t
  .ok (t, n)

/-! ### Sentences -/

/-- C white space. -/
def isSpace (c : Char) : Bool := c = ' ' || ('\t' ≤ c && c ≤ '\r')

/-- Value of a digit. -/
def digitValue (c : Char) : ℚ := ((c.toNat - '0'.toNat : ℕ) : ℚ)

/-- Decimal digits: value and number of digits read so far, and the rest. -/
def scanDigits (v : ℚ) (k : Nat) : CStr → ℚ × Nat × CStr
  | [] => (v, k, [])
  | c :: s => if c.isDigit then scanDigits (10 * v + digitValue c) (k + 1) s else (v, k, c :: s)

/-- Result of reading a number. -/
inductive Scan where
  /-- no number there -/
  | fail
  /-- exponents and hexadecimal notation are not modelled -/
  | unmodelled
  | num (value : ℚ) (rest : CStr)

/-- The `%lf` conversion of `sscanf` and `atof` for decimal numbers, before rounding (`inf` and `nan` count as `fail`). -/
def scanDouble (s : CStr) : Scan :=
  let s := s.dropWhile isSpace
  let neg := s.head? = some '-'
  let s := if s.head? = some '-' ∨ s.head? = some '+' then s.tail else s
  let (v, k, s) := scanDigits 0 0 s
  let (v, k', s) := if s.head? = some '.' then
      let (w, j, r) := scanDigits 0 0 s.tail
      (v + w / 10 ^ j, k + j, r)
    else (v, k, s)
  if k' = 0 then .fail
  else if s.head? = some 'e' ∨ s.head? = some 'E' ∨ s.head? = some 'x' ∨ s.head? = some 'X' then .unmodelled
  else .num (if neg then -v else v) s

section
variable [Arith]

/-- The value a conversion leaves in its variable. A failed conversion leaves it uninitialised (src/Narsese.c 414-423). -/
def Scan.get : Scan → R (ℚ × CStr)
  | .num v rest => .ok (rnd v, rest)
  | .fail => .error (.ub "uninitialised truth value")
  | .unmodelled => .error (.ub "number format not modelled")

/-- The optional `dt=` prefix (src/Narsese.c 379-399): occurrence time offset and remaining text. The local buffer has 30
cells; without a blank it is read unterminated, and with an empty number an uninitialised cell is read. -/
def sentenceOffset (narsese : CStr) : R (ℚ × CStr) :=
  match narsese with
  | 'd' :: 't' :: '=' :: s =>
    let num := s.takeWhile (· ≠ ' ')
    let rest := s.dropWhile (· ≠ ' ')
    if rest = [] then .error (.ub "Narsese_Sentence: dt not terminated")
    else if num.length + 3 ≥ 30 then .error (.ub "Narsese_Sentence: dt overflow")
    else if num.all isSpace then .error (.ub "Narsese_Sentence: dt uninitialised")
    else match scanDouble num with
      | .num v _ => .ok (rnd v, rest)
      | .fail => .ok (0, rest)
      | .unmodelled => .error (.ub "number format not modelled")
  | _ => .ok (0, narsese)

/-- The optional truth value at the end (src/Narsese.c 408-428): truth value and the text before it. -/
def sentenceTruth (s : CStr) : R (Truth × CStr) :=
  let oldFormat := s.getLast? = some '%'
  if s.getLast? = some '}' ∨ oldFormat then
    let body := s.dropLast.reverse
    let inner := (body.takeWhile fun c => c ≠ '{' ∧ c ≠ '%').reverse
    match body.dropWhile fun c => c ≠ '{' ∧ c ≠ '%' with
    | [] => .error (.ub "Narsese_Sentence: truth value opener")
    | opener :: before => do
      let hasComma := inner.contains ';'
      let (freq, conf) ← (if oldFormat ∧ !hasComma then do
          if opener ≠ '%' then .error (.ub "uninitialised truth value")
          let (freq, _) ← (scanDouble inner).get
          .ok (freq, rnd (9 / 10))
        else if oldFormat then do
          if opener ≠ '%' then .error (.ub "uninitialised truth value")
          let (freq, r) ← (scanDouble inner).get
          if r.head? ≠ some ';' then .error (.ub "uninitialised truth value")
          let (conf, _) ← (scanDouble r.tail).get
          .ok (freq, conf)
        else do
          if opener ≠ '{' then .error (.ub "uninitialised truth value")
          let (freq, r) ← (scanDouble inner).get
          let (conf, _) ← (scanDouble r).get
          .ok (freq, conf) : R (ℚ × ℚ))
      match before with
      | [] => .error (.ub "Narsese_Sentence: before truth value")
      | c :: before => do
        cassert (decide (c = ' ')) "Parsing error: Space before truth value required!"
        .ok (⟨freq, conf⟩, before.reverse)
  else .ok (⟨1, rnd (9 / 10)⟩, s)

/-- A parsed sentence. -/
structure Sentence where
  term : Term
  punctuation : Char
  tense : Nat
  truth : Truth
  occurrenceTimeOffset : ℚ

/-- The tense marker (src/Narsese.c 431-437). -/
def sentenceTense (s : CStr) : Nat :=
  match s.reverse with
  | ':' :: '|' :: ':' :: _ => 1
  | ':' :: '\\' :: ':' :: _ => 2
  | ':' :: '/' :: ':' :: _ => 3
  | _ => 0

/-- `Narsese_Sentence` (src/Narsese.c 376-448). -/
def Narsese_Sentence (n : Narsese) (narsese : CStr) : R (Sentence × Narsese) := do
  let (offset, s) ← sentenceOffset narsese
  cassert (decide (s.length > 1)) "Parsing error: Narsese string too short!"
  cassert (decide (s.length < NARSESE_LEN_MAX)) "Parsing error: Narsese string too long!"
  let (truth, s) ← sentenceTruth s
  let tense := sentenceTense s
  let punctuation_offset := if tense ≠ 0 then 5 else 1
  if s.length < punctuation_offset then .error (.ub "Narsese_Sentence: punctuation")
  else do
    let punctuation := s.getD (s.length - punctuation_offset) '\x00'
    cassert (punctuation = '!' || punctuation = '?' || punctuation = '.') "Parsing error: Punctuation"
    let (term, n) ← Narsese_Term n (s.take (s.length - punctuation_offset))
    .ok (⟨term, punctuation, tense, truth, offset⟩, n)

end

/-! ### Printing -/

/-- `Narsese_PrintAtom` (src/Narsese.c 466-543). -/
def Narsese_PrintAtom (n : Narsese) (atom : Atom) : CStr :=
  if atom = 0 then ['@']
  else if Narsese_copulaEquals n atom INHERITANCE then ['-', '-', '>']
  else if Narsese_copulaEquals n atom TEMPORAL_IMPLICATION then ['=', '/', '>']
  else if Narsese_copulaEquals n atom EQUIVALENCE then ['<', '=', '>']
  else if Narsese_copulaEquals n atom DISJUNCTION then ['|', '|']
  else if Narsese_copulaEquals n atom SEQUENCE then ['&', '/']
  else if Narsese_copulaEquals n atom HAS_CONTINUOUS_PROPERTY then ['|', '-', '>']
  else if Narsese_copulaEquals n atom IMPLICATION then ['=', '=', '>']
  else if Narsese_copulaEquals n atom CONJUNCTION then ['&', '&']
  else if Narsese_copulaEquals n atom SIMILARITY then ['<', '-', '>']
  else if Narsese_copulaEquals n atom EXT_IMAGE1 then ['/', '1']
  else if Narsese_copulaEquals n atom EXT_IMAGE2 then ['/', '2']
  else if Narsese_copulaEquals n atom INT_IMAGE1 then ['\\', '1']
  else if Narsese_copulaEquals n atom INT_IMAGE2 then ['\\', '2']
  else n.nameOf atom

/-- `Narsese_PrintTermPrettyRecursive` (src/Narsese.c 545-637), without its final line break; `index` starts at 1. -/
def Narsese_PrintTermPrettyRecursive (n : Narsese) (term : Term) : Nat → Nat → CStr
  | 0, _ => []
  | fuel + 1, index =>
    let atom := term.get (index - 1)
    if atom = 0 then []
    else
      let child1 := index * 2
      let child2 := index * 2 + 1
      let hasLeftChild := decide (child1 < COMPOUND_TERM_SIZE_MAX) && decide (term.get (child1 - 1) ≠ 0)
      let hasRightChild := decide (child2 < COMPOUND_TERM_SIZE_MAX) && decide (term.get (child2 - 1) ≠ 0) &&
        !Narsese_copulaEquals n (term.get (child2 - 1)) SET_TERMINATOR
      let isSingularProduct := Narsese_copulaEquals n atom PRODUCT && !hasRightChild
      let isNegation := Narsese_copulaEquals n atom NEGATION
      let isFrequencyGreater := Narsese_copulaEquals n atom SEQUENCE && !hasRightChild
      let isFrequencyEqual := Narsese_copulaEquals n atom SIMILARITY && !hasRightChild
      let isExtSet := Narsese_copulaEquals n atom EXT_SET
      let isIntSet := Narsese_copulaEquals n atom INT_SET
      let isStatement := !isFrequencyEqual && (Narsese_copulaEquals n atom TEMPORAL_IMPLICATION ||
        Narsese_copulaEquals n atom INHERITANCE || Narsese_copulaEquals n atom SIMILARITY ||
        Narsese_copulaEquals n atom IMPLICATION || Narsese_copulaEquals n atom EQUIVALENCE ||
        Narsese_copulaEquals n atom HAS_CONTINUOUS_PROPERTY)
      let ifLeft (c : Char) : CStr := if hasLeftChild then [c] else []
      let opener := if isExtSet then ifLeft '{' else if isIntSet then ifLeft '[' else if isStatement then ifLeft '<' else
        ifLeft '(' ++
          (if isNegation || isSingularProduct || isFrequencyGreater || isFrequencyEqual then
            (if isFrequencyGreater then ['+'] else if isFrequencyEqual then ['='] else Narsese_PrintAtom n atom) ++ [' ']
          else [])
      let left := if child1 < COMPOUND_TERM_SIZE_MAX then Narsese_PrintTermPrettyRecursive n term fuel child1 else []
      let gap := if hasRightChild then ifLeft ' ' else []
      let middle := if !isExtSet && !isIntSet && !Narsese_copulaEquals n atom SET_TERMINATOR &&
          !isNegation && !isSingularProduct && !isFrequencyEqual && !isFrequencyGreater then
          Narsese_PrintAtom n atom ++ ifLeft ' ' else []
      let right := if child2 < COMPOUND_TERM_SIZE_MAX then Narsese_PrintTermPrettyRecursive n term fuel child2 else []
      let closer := if isExtSet then ifLeft '}' else if isIntSet then ifLeft ']' else if isStatement then ifLeft '>' else
        ifLeft ')'
      opener ++ left ++ gap ++ middle ++ right ++ closer

/-- `Narsese_PrintTerm` (src/Narsese.c 639-642). -/
def Narsese_PrintTerm (n : Narsese) (term : Term) : CStr := Narsese_PrintTermPrettyRecursive n term 7 1

end ONA
