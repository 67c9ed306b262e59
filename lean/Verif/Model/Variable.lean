import Verif.Model.Narsese
import Verif.Model.Truth
/-
Model of src/Variable.c.

Simplifications: the local hash tables of the variable introduction functions map atoms to numbers and have one cell
per atom of a term, so they never run out; by C02/C03 they are finite maps and are written as functions
`Nat → Nat` (0 is the NULL of an absent key). `Narsese_AtomicTermIndex`/`Narsese_AtomicTerm` of a variable name
return an atom assigned by `Narsese_INIT` and change nothing (theorem `C32_initial_index`).
-/
namespace ONA

/-- The atom of a name indexed by `Narsese_INIT`. -/
def nameAtom (s : CStr) : Atom := toAtom (initialNames.idxOf s + 1)

/-- The name of a numbered variable: `{ kind, '0' + id, 0 }` (src/Variable.c 270, 337, 361, 414, 444). -/
def varName (kind : Char) (id : Nat) : CStr := [kind, Char.ofNat (48 + id)]

/-- `Substitution` (src/Variable.h 47-51). -/
structure Substitution where
  map : Nat → Term
  success : Bool
  truth : Truth

/-- `(Substitution) {0}`. -/
def Substitution.zero : Substitution := ⟨fun _ => Term.zero, false, ⟨0, 0⟩⟩

/-- `unifyQueryVarOnly ? Variable_isQueryVariable(a) : Variable_isVariable(a)` (src/Variable.c 71). -/
def allowedVar (n : Narsese) (queryOnly : Bool) (a : Atom) : Bool :=
  if queryOnly then Variable_isQueryVariable n a else Variable_isVariable n a

section
variable [Arith]

/-- The branch for different atoms (src/Variable.c 93-109): the new truth of the substitution, or `none` where the C code
returns failure. `similarityDistance` is `Variable_similarity_distance`. -/
def unifyDifferent (n : Narsese) (similarityDistance : ℚ) (truth current : Truth) (general_atom specific_atom : Atom) :
    R (Option Truth) :=
  if truth.confidence = 0 then .ok none
  else do
    if !(← Narsese_hasAtomValue n general_atom) then .ok none
    else if !(← Narsese_hasAtomValue n specific_atom) then .ok none
    else if n.atomMeasurementNames (general_atom.toNat - 1) ≠ n.atomMeasurementNames (specific_atom.toNat - 1) then
      .ok none
    else
      let v1 ← Narsese_getAtomValue n general_atom
      let v2 ← Narsese_getAtomValue n specific_atom
      let d ← fdiv |fsub v1 v2| similarityDistance
      let t := Truth_Analogy current ⟨1, cMAX 0 (fsub 1 d)⟩
      .ok (if t.confidence = 0 then none else some t)

/-- Loop of `Variable_Unify2` (src/Variable.c 66-113), `k` iterations left. -/
def unifyLoop (n : Narsese) (similarityDistance : ℚ) (truth : Truth) (general specific : Term) (queryOnly : Bool) :
    Nat → Substitution → R Substitution
  | 0, s => .ok { s with success := true }
  | k + 1, s =>
    let i := COMPOUND_TERM_SIZE_MAX - (k + 1)
    let general_atom := general.get i
    if general_atom = 0 then unifyLoop n similarityDistance truth general specific queryOnly k s
    else if allowedVar n queryOnly general_atom then do
      cassert (decide (general_atom.toNat ≤ 27)) "Variable_Unify: Problematic variable encountered"
      let subtree := Term_ExtractSubterm specific i
      (if Variable_isQueryVariable n general_atom && Variable_isVariable n (subtree.get 0) then .ok s
      else if decide ((s.map general_atom.toNat).get 0 ≠ 0) && !decide (s.map general_atom.toNat = subtree) then .ok s
      else if Narsese_copulaEquals n (subtree.get 0) SET_TERMINATOR then .ok s
      else unifyLoop n similarityDistance truth general specific queryOnly k
        { s with map := upd s.map general_atom.toNat subtree } : R Substitution)
    else
      let specific_atom := specific.get i
      if general_atom ≠ specific_atom then do
        match (← unifyDifferent n similarityDistance truth s.truth general_atom specific_atom) with
        | none => .ok s
        | some t => unifyLoop n similarityDistance truth general specific queryOnly k { s with truth := t }
      else unifyLoop n similarityDistance truth general specific queryOnly k s

/-- `Variable_Unify2` (src/Variable.c 62-116). When the code fails because the similarity became 0, the returned
`truth` is 0 in C and the previous value here; it is not used after a failure. -/
def Variable_Unify2 (n : Narsese) (similarityDistance : ℚ) (truth : Truth) (general specific : Term)
    (queryOnly : Bool) : R Substitution :=
  unifyLoop n similarityDistance truth general specific queryOnly COMPOUND_TERM_SIZE_MAX
    { Substitution.zero with truth := truth }

/-- `Variable_UnifyWithAnalogy` (src/Variable.c 118-121). -/
def Variable_UnifyWithAnalogy (n : Narsese) (similarityDistance : ℚ) (truth : Truth) (general specific : Term) :
    R Substitution := Variable_Unify2 n similarityDistance truth general specific false

/-- `Variable_Unify` (src/Variable.c 123-127). With truth 0 the similarity distance is never used. -/
def Variable_Unify (n : Narsese) (general specific : Term) : R Substitution :=
  Variable_UnifyWithAnalogy n 1 ⟨0, 0⟩ general specific

end

/-- Loop of `Variable_ApplySubstitute` (src/Variable.c 133-145), `k` iterations left: the term and `*success`. -/
def applyLoop (n : Narsese) (substitution : Substitution) : Nat → Term → Bool → R (Term × Bool)
  | 0, general, success => .ok (general, success)
  | k + 1, general, success => do
    let i := COMPOUND_TERM_SIZE_MAX - (k + 1)
    let general_atom := general.get i
    let is_variable := Variable_isVariable n general_atom
    cassert (!is_variable || decide (general_atom.toNat ≤ 27))
      "Variable_ApplySubstitute: Problematic variable encountered"
    if is_variable && decide ((substitution.map general_atom.toNat).get 0 ≠ 0) then
      let r := Term_OverrideSubterm general i (substitution.map general_atom.toNat)
      applyLoop n substitution k r.2 (if r.1 then success else false)
    else applyLoop n substitution k general success

/-- `Variable_ApplySubstitute` (src/Variable.c 129-147): the term and `*success`. -/
def Variable_ApplySubstitute (n : Narsese) (general : Term) (substitution : Substitution) : R (Term × Bool) := do
  cassert substitution.success
    "A substitution from unsuccessful unification cannot be used to substitute variables!"
  applyLoop n substitution COMPOUND_TERM_SIZE_MAX general true

/-! ### Variable introduction -/

/-- The counting loop (src/Variable.c 216-232): `appearing[atom]++` for each simple atom of the term. -/
def countAtoms (n : Narsese) (term : Term) (appearing : Nat → Nat) : Nat → Nat :=
  (List.range COMPOUND_TERM_SIZE_MAX).foldl
    (fun m i => if Narsese_IsSimpleAtom n (term.get i) then upd m (term.get i).toNat (m (term.get i).toNat + 1) else m)
    appearing

/-- `countStatementAtoms` (src/Variable.c 151-234), the new content of `appearing`. The fuel bounds the depth of the
term. -/
def countStatementAtoms (n : Narsese) (extensionally spatial_composition : Bool) (sideOfProduct : Nat) :
    Nat → Term → Bool → (Nat → Nat) → (Nat → Nat)
  | 0, _, _, appearing => appearing
  | fuel + 1, cur, ignore_structure, appearing =>
    let rec' := fun t a => countStatementAtoms n extensionally spatial_composition sideOfProduct fuel t true a
    let similarity := Narsese_copulaEquals n (cur.get 0) SIMILARITY
    let appearing :=
      if (Narsese_copulaEquals n (cur.get 0) HAS_CONTINUOUS_PROPERTY && !Narsese_copulaEquals n (cur.get 1) PRODUCT &&
            extensionally) || Narsese_copulaEquals n (cur.get 0) INHERITANCE || similarity then
        let subject := Term_ExtractSubterm cur 1
        let predicate := Term_ExtractSubterm cur 2
        let extImage := Narsese_copulaEquals n (predicate.get 0) EXT_IMAGE1 ||
          Narsese_copulaEquals n (predicate.get 0) EXT_IMAGE2
        let intImage := Narsese_copulaEquals n (subject.get 0) INT_IMAGE1 ||
          Narsese_copulaEquals n (subject.get 0) INT_IMAGE2
        let appearing :=
          if extensionally || similarity then
            let appearing :=
              if intImage then rec' (Term_ExtractSubterm subject 1) appearing
              else if sideOfProduct ≠ 0 && Narsese_copulaEquals n (subject.get 0) PRODUCT then
                let appearing := if sideOfProduct = 1 then rec' (Term_ExtractSubterm subject 1) appearing else appearing
                if sideOfProduct = 2 then rec' (Term_ExtractSubterm subject 2) appearing else appearing
              else rec' subject appearing
            if extImage then rec' (Term_ExtractSubterm predicate 2) appearing else appearing
          else appearing
        if !extensionally || similarity then
          let appearing :=
            if extImage then rec' (Term_ExtractSubterm predicate 1) appearing else rec' predicate appearing
          if intImage then rec' (Term_ExtractSubterm subject 2) appearing else appearing
        else appearing
      else appearing
    if ignore_structure || spatial_composition then
      if (Narsese_copulaEquals n (cur.get 0) EXT_SET || Narsese_copulaEquals n (cur.get 0) INT_SET) &&
          !Narsese_copulaEquals n (cur.get 2) SET_TERMINATOR && !spatial_composition then appearing
      else countAtoms n cur appearing
    else appearing

/-- `countHigherOrderStatementAtoms` (src/Variable.c 236-255). -/
def countHigherOrderStatementAtoms (n : Narsese) (extensionally : Bool) (sideOfProduct : Nat) :
    Nat → Term → (Nat → Nat) → (Nat → Nat)
  | 0, _, appearing => appearing
  | fuel + 1, term, appearing =>
    if Narsese_copulaEquals n (term.get 0) NEGATION then
      countHigherOrderStatementAtoms n extensionally sideOfProduct fuel (Term_ExtractSubterm term 1) appearing
    else if Narsese_copulaEquals n (term.get 0) SEQUENCE || Narsese_copulaEquals n (term.get 0) CONJUNCTION ||
        Narsese_copulaEquals n (term.get 0) TEMPORAL_IMPLICATION || Narsese_copulaEquals n (term.get 0) IMPLICATION ||
        Narsese_copulaEquals n (term.get 0) EQUIVALENCE then
      countHigherOrderStatementAtoms n extensionally sideOfProduct fuel (Term_ExtractSubterm term 2)
        (countHigherOrderStatementAtoms n extensionally sideOfProduct fuel (Term_ExtractSubterm term 1) appearing)
    else countStatementAtoms n extensionally (Narsese_copulaEquals n (term.get 0) INT_SET) sideOfProduct termDepth term
      false appearing

/-- Loop of `newVarID` (src/Variable.c 268-276), `k` iterations left. -/
def newVarIDLoop (term : Term) (kind : Char) : Nat → Nat
  | 0 => 0
  | k + 1 =>
    let var_id := 10 - (k + 1)
    if !Term_HasAtom term (nameAtom (varName kind var_id)) then var_id else newVarIDLoop term kind k

/-- `newVarID` (src/Variable.c 266-278). -/
def newVarID (term : Term) (varIndep : Bool) : Nat := newVarIDLoop term (if varIndep then '$' else '#') 9

/-- Loop variables of the introduction functions. -/
structure IntroState where
  term : Term
  variable_id : Nat → Nat
  depvar_i : Nat
  indepvar_i : Nat

/-- `HashTable_Get(&HT_variable_id, atom)`, or a new number which is stored (src/Variable.c 329-334, 353-358): the number
and whether it is new. -/
def takeVarID (s : IntroState) (atom : Atom) (indep : Bool) : Nat × IntroState :=
  if s.variable_id atom.toNat ≠ 0 then (s.variable_id atom.toNat, s)
  else
    let id := if indep then s.indepvar_i else s.depvar_i
    (id, { s with
      variable_id := upd s.variable_id atom.toNat id
      indepvar_i := if indep then s.indepvar_i + 1 else s.indepvar_i
      depvar_i := if indep then s.depvar_i else s.depvar_i + 1 })

/-- Replacing the atom at position `i` by a variable (src/Variable.c 327-345, 353-369, 406-422): `(continue?, state)`. -/
def introduceAt (s : IntroState) (i : Nat) (atom : Atom) (indep : Bool) : Bool × IntroState :=
  let (id, s) := takeVarID s atom indep
  if id ≤ 9 then
    let r := Term_OverrideSubterm s.term i (Term.zero.put 0 (nameAtom (varName (if indep then '$' else '#') id)))
    (r.1, { s with term := r.2 })
  else (true, s)

/-- Loop of `Variable_IntroduceImplicationVariables2` (src/Variable.c 318-372), `k` iterations left: `*success` and the
term. `left`, `right`, `opseq` are the contents of the hash tables, `opSeqNonempty` is `potential_op_seq.atoms[0] != 0`. -/
def introduceLoop (copy : Term) (self : Atom) (left right opseq : Nat → Nat) (opSeqNonempty : Bool) :
    Nat → IntroState → Bool × Term
  | 0, s => (true, s.term)
  | k + 1, s =>
    let i := COMPOUND_TERM_SIZE_MAX - (k + 1)
    let atom := copy.get i
    let valueL := left atom.toNat
    let valueR := right atom.toNat
    let valueOpSeq := opseq atom.toNat
    if valueL ≥ 2 ∨ valueR ≥ 2 ∨ (valueL ≠ 0 ∧ valueR ≠ 0) then
      if valueL ≠ 0 ∧ valueR ≠ 0 then
        let r := introduceAt s i atom true
        if r.1 then introduceLoop copy self left right opseq opSeqNonempty k r.2 else (false, r.2.term)
      else if atom = self ∧ opSeqNonempty ∧ valueOpSeq ≠ 0 ∧ valueL = valueOpSeq then
        introduceLoop copy self left right opseq opSeqNonempty k s
      else
        let r := introduceAt s i atom false
        if r.1 then introduceLoop copy self left right opseq opSeqNonempty k r.2 else (false, r.2.term)
    else introduceLoop copy self left right opseq opSeqNonempty k s

/-- `Variable_IntroduceImplicationVariables2` (src/Variable.c 280-374): `*success` and the term. -/
def Variable_IntroduceImplicationVariables2 (n : Narsese) (implication : Term) (extensionally : Bool)
    (sideOfProduct : Nat) : R (Bool × Term) := do
  cassert (Narsese_copulaEquals n (implication.get 0) TEMPORAL_IMPLICATION ||
    Narsese_copulaEquals n (implication.get 0) IMPLICATION || Narsese_copulaEquals n (implication.get 0) EQUIVALENCE)
    "An implication is expected here!"
  let count := countHigherOrderStatementAtoms n extensionally sideOfProduct termDepth
  let left_side := Term_ExtractSubterm implication 1
  let right_side := Term_ExtractSubterm implication 2
  let ops := if extensionally then Narsese_OperationSequenceAppendLeftNested n termDepth Term.zero left_side
    else (false, Term.zero)
  let appearing_opseq := if ops.1 then count left_side (fun _ => 0) else fun _ => 0
  let appearing_left := count left_side (fun _ => 0)
  let appearing_right := count right_side (fun _ => 0)
  let depvar_i := newVarID implication false
  let indepvar_i := newVarID implication true
  if depvar_i = 0 ∨ indepvar_i = 0 then .ok (false, implication)
  else .ok (introduceLoop implication n.SELF appearing_left appearing_right appearing_opseq (decide (ops.2.get 0 ≠ 0))
    COMPOUND_TERM_SIZE_MAX ⟨implication, fun _ => 0, depvar_i, indepvar_i⟩)

/-- `Variable_IntroduceImplicationVariables` (src/Variable.c 376-379). -/
def Variable_IntroduceImplicationVariables (n : Narsese) (implication : Term) (extensionally : Bool) : R (Bool × Term) :=
  Variable_IntroduceImplicationVariables2 n implication extensionally 0

/-- Loop of `Variable_IntroduceConjunctionVariables` (src/Variable.c 402-427), `k` iterations left. -/
def introduceConjLoop (copy : Term) (left : Nat → Nat) : Nat → IntroState → Bool × Term
  | 0, s => (true, s.term)
  | k + 1, s =>
    let i := COMPOUND_TERM_SIZE_MAX - (k + 1)
    let atom := copy.get i
    if left atom.toNat ≥ 2 then
      let r := introduceAt s i atom false
      if r.1 then introduceConjLoop copy left k r.2 else (false, r.2.term)
    else introduceConjLoop copy left k s

/-- `Variable_IntroduceConjunctionVariables` (src/Variable.c 381-429): `*success` and the term. -/
def Variable_IntroduceConjunctionVariables (n : Narsese) (conjunction : Term) (extensionally : Bool) :
    R (Bool × Term) := do
  cassert (Narsese_copulaEquals n (conjunction.get 0) CONJUNCTION) "A conjunction is expected here!"
  let appearing_left := countHigherOrderStatementAtoms n extensionally 0 termDepth conjunction (fun _ => 0)
  let depvar_i := newVarID conjunction false
  if depvar_i = 0 then .ok (false, conjunction)
  else .ok (introduceConjLoop conjunction appearing_left COMPOUND_TERM_SIZE_MAX ⟨conjunction, fun _ => 0, depvar_i, 1⟩)

/-! ### Normalisation -/

/-- `varType` (src/Variable.c 439). -/
def varType (n : Narsese) (atom : Atom) : Char :=
  if Variable_isIndependentVariable n atom then '$' else if Variable_isDependentVariable n atom then '#' else '?'

/-- Loop variables of `Variable_Normalize` (src/Variable.c 433-434); the three counters are kept per variable type. -/
structure NormState where
  term : Term
  normalized : Nat → Bool
  index : Char → Nat

/-- Inner loop of `Variable_Normalize` (src/Variable.c 446-454), `k` iterations left: all occurrences of `atom` from the
current position on become `new`. -/
def renameLoop (atom new : Atom) : Nat → Term → (Nat → Bool) → Term × (Nat → Bool)
  | 0, term, normalized => (term, normalized)
  | k + 1, term, normalized =>
    let i := COMPOUND_TERM_SIZE_MAX - (k + 1)
    if atom = term.get i then renameLoop atom new k (term.put i new) (upd normalized i true)
    else renameLoop atom new k term normalized

/-- Outer loop of `Variable_Normalize` (src/Variable.c 436-456), `k` iterations left. -/
def normalizeLoop (n : Narsese) : Nat → NormState → R Term
  | 0, s => .ok s.term
  | k + 1, s => do
    let j := COMPOUND_TERM_SIZE_MAX - (k + 1)
    let atom := s.term.get j
    let kind := varType n atom
    if !s.normalized j && Variable_isVariable n atom then
      cassert (decide (s.index kind ≤ 9)) "Variable overflow in variable normalization!"
      let r := renameLoop atom (nameAtom (varName kind (s.index kind))) (k + 1) s.term s.normalized
      normalizeLoop n k ⟨r.1, r.2, fun c => if c = kind then s.index kind + 1 else s.index c⟩
    else normalizeLoop n k s

/-- `Variable_Normalize` (src/Variable.c 431-457). -/
def Variable_Normalize (n : Narsese) (term : Term) : R Term :=
  normalizeLoop n COMPOUND_TERM_SIZE_MAX ⟨term, fun _ => false, fun _ => 1⟩

end ONA
