import Verif.Model.RuleTableCode
/-
Model of src/NAL.c 27-136 and of the file src/RuleTable.c it generates: matching of premises against rule patterns,
construction of conclusions, reductions.
-/
namespace ONA

/-- Name of an atom of a pattern. -/
def patternName (a : Atom) : CStr := (initialNames ++ [['S', 'E', 'L', 'F']]).getD (a.toNat - 1) []

/-- Upper case atoms are variables of the rule language (src/NAL.c 34, 57). -/
def isMetaVar (a : Atom) : Bool :=
  match patternName a with
  | c :: _ => decide (a ≠ 0) && decide ('A' ≤ c) && decide (c ≤ 'Z')
  | [] => false

/-- Rule variables for operations (src/NAL.c 32). -/
def isMetaOp (a : Atom) : Bool :=
  match patternName a with
  | 'O' :: 'p' :: _ => true
  | _ => false

/-- The generated code for the atom at position `i` of a premise pattern (src/NAL.c 28-51). `none` is the jump to the
next rule. -/
def matchAtom (n : Narsese) (pattern term : Term) (i : Nat) (subs : Nat → Term) : Option (Nat → Term) :=
  let atom := pattern.get i
  if atom = 0 then some subs
  else if isMetaVar atom then
    let subtree := Term_ExtractSubterm term i
    if ((subs atom.toNat).get 0 ≠ 0 && subs atom.toNat ≠ subtree) || Narsese_copulaEquals n (subtree.get 0) SET_TERMINATOR then
      none
    else if isMetaOp atom && !Narsese_isOperation n subtree then none
    else some (upd subs atom.toNat subtree)
  else if term.get i ≠ atom then none
  else some subs

/-- The loop over the positions of a premise pattern (src/NAL.c 80-83), `k` iterations left. -/
def matchLoop (n : Narsese) (pattern term : Term) : Nat → (Nat → Term) → Option (Nat → Term)
  | 0, subs => some subs
  | k + 1, subs =>
    match matchAtom n pattern term (COMPOUND_TERM_SIZE_MAX - (k + 1)) subs with
    | none => none
    | some subs => matchLoop n pattern term k subs

/-- Matching a premise (src/NAL.c 80-90). -/
def matchPremise (n : Narsese) (pattern term : Term) (subs : Nat → Term) : Option (Nat → Term) :=
  matchLoop n pattern term COMPOUND_TERM_SIZE_MAX subs

/-- The generated code for a position of the conclusion (src/NAL.c 53-68). -/
def conclusionAtom (pattern : Term) (subs : Nat → Term) (i : Nat) (conclusion : Term) : Option Term :=
  let atom := pattern.get i
  if atom = 0 then some conclusion
  else if isMetaVar atom then
    match Term_OverrideSubterm conclusion i (subs atom.toNat) with
    | (true, conclusion) => some conclusion
    | (false, _) => none
  else some (conclusion.put i atom)

/-- The loop over the positions of the conclusion (src/NAL.c 92-95), `k` iterations left. -/
def conclusionLoop (pattern : Term) (subs : Nat → Term) : Nat → Term → Option Term
  | 0, conclusion => some conclusion
  | k + 1, conclusion =>
    match conclusionAtom pattern subs (COMPOUND_TERM_SIZE_MAX - (k + 1)) conclusion with
    | none => none
    | some conclusion => conclusionLoop pattern subs k conclusion

/-- Building the conclusion (src/NAL.c 91-95). -/
def buildConclusion (pattern : Term) (subs : Nat → Term) : Option Term :=
  conclusionLoop pattern subs COMPOUND_TERM_SIZE_MAX Term.zero

/-- A reduction with its patterns. -/
def applyReduction (n : Narsese) (r : Reduction) (term1 : Term) : Option Term :=
  match matchPremise n r.1 term1 (fun _ => Term.zero) with
  | none => none
  | some subs => buildConclusion r.2 subs

/-- `RuleTable_Reduce` (generated, src/NAL.c 126-130): the first applicable reduction. -/
def RuleTable_Reduce (n : Narsese) (term1 : Term) : Term :=
  match nalReductions.findSome? fun r => applyReduction n r term1 with
  | some t => t
  | none => term1

/-- The conclusion of a rule for given premises, before reduction (generated, src/NAL.c 70-96). -/
def ruleConclusion (n : Narsese) (r : Rule) (term1 term2 : Term) (doublePremise : Bool) : Option Term :=
  match r.premise2 with
  | none =>
    if doublePremise then none
    else
      match matchPremise n r.premise1 term1 (fun _ => Term.zero) with
      | none => none
      | some subs => buildConclusion r.conclusion subs
  | some premise2 =>
    if !doublePremise then none
    else
      match matchPremise n r.premise1 term1 (fun _ => Term.zero) with
      | none => none
      | some subs =>
        match matchPremise n premise2 term2 subs with
        | none => none
        | some subs => buildConclusion r.conclusion subs

/-- The truth functions (src/Truth.c). -/
def TruthFunction.run [Arith] : TruthFunction → Truth → Truth → R Truth
  | .Abduction, a, b => Truth_Abduction a b
  | .Analogy, a, b => .ok (Truth_Analogy a b)
  | .Comparison, a, b => Truth_Comparison a b
  | .DecomposeNNN, a, b => .ok (Truth_DecomposeNNN a b)
  | .DecomposeNPP, a, b => .ok (Truth_DecomposeNPP a b)
  | .DecomposePNN, a, b => .ok (Truth_DecomposePNN a b)
  | .DecomposePNP, a, b => .ok (Truth_DecomposePNP a b)
  | .DecomposePPP, a, b => .ok (Truth_DecomposePPP a b)
  | .Deduction, a, b => .ok (Truth_Deduction a b)
  | .Difference, a, b => .ok (Truth_Difference a b)
  | .Exemplification, a, b => Truth_Exemplification a b
  | .FrequencyEqual, a, b => .ok (Truth_FrequencyEqual a b)
  | .FrequencyGreater, a, b => .ok (Truth_FrequencyGreater a b)
  | .Induction, a, b => Truth_Induction a b
  | .Intersection, a, b => .ok (Truth_Intersection a b)
  | .Negation, a, b => .ok (Truth_Negation a b)
  | .Resemblance, a, b => .ok (Truth_Resemblance a b)
  | .StructuralDeduction, a, b => .ok (Truth_StructuralDeduction a b)
  | .StructuralDeductionNegated, a, b => .ok (Truth_StructuralDeductionNegated a b)
  | .StructuralIntersection, a, b => .ok (Truth_StructuralIntersection a b)
  | .Union, a, b => .ok (Truth_Union a b)

/-- The truth value of the conclusion (src/NAL.c 101-108). -/
def Rule.conclusionTruth [Arith] (r : Rule) (truth1 truth2 : Truth) : R Truth :=
  if r.switchTruthArgs then r.truth.run truth2 truth1 else r.truth.run truth1 truth2

end ONA
