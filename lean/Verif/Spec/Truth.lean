import Verif.Model.Truth
/-
Specification of NAL truth values (NAL book 2013): extended boolean operators and amounts of evidence.
-/
namespace ONA
namespace NAL

/-- conjunction, disjunction, negation of extended boolean values -/
def and (x y : ℚ) : ℚ := x * y
def or (x y : ℚ) : ℚ := 1 - (1 - x) * (1 - y)
def not (x : ℚ) : ℚ := 1 - x

/-- Total amount of evidence behind a confidence, with evidential horizon 1. -/
def weight (c : ℚ) : ℚ := c / (1 - c)
/-- Positive amount of evidence behind a truth value. -/
def posWeight (t : Truth) : ℚ := t.frequency * weight t.confidence

/-- `t` is the truth value of `wp` positive out of `w` amounts of evidence. -/
def FromEvidence (t : Truth) (wp w : ℚ) : Prop :=
  t.confidence = w / (w + 1) ∧ (w ≠ 0 → t.frequency = wp / w)

end NAL

/-- A truth value inside the unit square (whose components are doubles). -/
structure Truth.Valid [Arith] (t : Truth) : Prop where
  f_repr : IsRepr t.frequency
  c_repr : IsRepr t.confidence
  f_nonneg : 0 ≤ t.frequency
  f_le : t.frequency ≤ 1
  c_nonneg : 0 ≤ t.confidence
  c_le : t.confidence ≤ 1

/-- A two-premise truth function that is always defined on valid truth values, stays within the unit square and
never produces a confidence above that of its first premise. -/
def TruthFnOk [Arith] (F : Truth → Truth → R Truth) : Prop :=
  ∀ v1 v2 : Truth, v1.Valid → v2.Valid → ∃ t, F v1 v2 = .ok t ∧ t.Valid ∧ t.confidence ≤ v1.confidence

/-- A pure truth function as a possibly failing one. -/
def pureFn (F : Truth → Truth → Truth) : Truth → Truth → R Truth := fun v1 v2 => .ok (F v1 v2)

/-- All two-premise truth functions of src/Truth.h 59-92 except revision (which has its own theorems). -/
def allTruthFunctions [Arith] : List (Truth → Truth → R Truth) :=
  [pureFn Truth_Deduction, Truth_Induction, pureFn Truth_Intersection, pureFn Truth_GoalDeduction, Truth_Abduction,
   Truth_Exemplification, Truth_Comparison, pureFn Truth_Analogy, pureFn Truth_Resemblance,
   pureFn Truth_StructuralDeduction, pureFn Truth_StructuralDeductionNegated, pureFn Truth_StructuralIntersection,
   pureFn Truth_Union, pureFn Truth_Difference, Truth_Conversion, pureFn Truth_Negation, pureFn Truth_DecomposePNN,
   pureFn Truth_DecomposeNPP, pureFn Truth_DecomposePNP, pureFn Truth_DecomposePPP, pureFn Truth_DecomposeNNN,
   Truth_AnonymousAnalogy, pureFn Truth_FrequencyGreater, pureFn Truth_FrequencyEqual]

end ONA
