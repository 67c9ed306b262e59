import Verif.Model.RuleText
/-
The file src/RuleTable.c as generated by src/NAL.c 27-136 from the rules of src/NAL.h 66-268, with the patterns as terms.
Props/RuleTable.lean proves that this is what the generator yields for the texts of Model/RuleText.lean.
-/
namespace ONA

/-- The generated rules (src/NAL.h 66-239), in order. -/
def nalRules : List Rule := [
  ⟨(pat [45, 33, 31]), some (pat [45, 31, 34]), (pat [45, 33, 34]), .Deduction, false, false⟩,
  ⟨(pat [45, 31, 34]), some (pat [45, 33, 31]), (pat [45, 33, 34]), .Deduction, true, false⟩,
  ⟨(pat [45, 28, 29]), some (pat [45, 28, 30]), (pat [45, 30, 29]), .Induction, false, false⟩,
  ⟨(pat [45, 28, 30]), some (pat [45, 28, 29]), (pat [45, 30, 29]), .Induction, true, false⟩,
  ⟨(pat [45, 28, 30]), some (pat [45, 29, 30]), (pat [45, 29, 28]), .Abduction, false, false⟩,
  ⟨(pat [45, 29, 30]), some (pat [45, 28, 30]), (pat [45, 29, 28]), .Abduction, true, false⟩,
  ⟨(pat [45, 28, 29]), some (pat [45, 29, 30]), (pat [45, 30, 28]), .Exemplification, false, false⟩,
  ⟨(pat [45, 29, 30]), some (pat [45, 28, 29]), (pat [45, 30, 28]), .Exemplification, true, false⟩,
  ⟨(pat [33]), some (pat [45, 33, 34]), (pat [34]), .Deduction, false, false⟩,
  ⟨(pat [45, 33, 34]), some (pat [33]), (pat [34]), .Deduction, true, false⟩,
  ⟨(pat [34]), some (pat [45, 33, 34]), (pat [33]), .Abduction, false, false⟩,
  ⟨(pat [45, 33, 34]), some (pat [34]), (pat [33]), .Abduction, true, false⟩,
  ⟨(pat [46, 33, 34]), none, (pat [46, 34, 33]), .StructuralIntersection, false, false⟩,
  ⟨(pat [46, 31, 34]), some (pat [46, 33, 31]), (pat [46, 33, 34]), .Resemblance, false, false⟩,
  ⟨(pat [46, 33, 31]), some (pat [46, 31, 34]), (pat [46, 33, 34]), .Resemblance, true, false⟩,
  ⟨(pat [45, 34, 31]), some (pat [45, 33, 31]), (pat [46, 33, 34]), .Comparison, false, false⟩,
  ⟨(pat [45, 33, 31]), some (pat [45, 34, 31]), (pat [46, 33, 34]), .Comparison, true, false⟩,
  ⟨(pat [45, 31, 34]), some (pat [45, 31, 33]), (pat [46, 33, 34]), .Comparison, false, false⟩,
  ⟨(pat [45, 31, 33]), some (pat [45, 31, 34]), (pat [46, 33, 34]), .Comparison, true, false⟩,
  ⟨(pat [45, 31, 34]), some (pat [46, 33, 31]), (pat [45, 33, 34]), .Analogy, false, false⟩,
  ⟨(pat [46, 33, 31]), some (pat [45, 31, 34]), (pat [45, 33, 34]), .Analogy, true, false⟩,
  ⟨(pat [45, 34, 31]), some (pat [46, 33, 31]), (pat [45, 34, 33]), .Analogy, false, false⟩,
  ⟨(pat [46, 33, 31]), some (pat [45, 34, 31]), (pat [45, 34, 33]), .Analogy, true, false⟩,
  ⟨(pat [33]), some (pat [46, 33, 34]), (pat [34]), .Analogy, false, false⟩,
  ⟨(pat [46, 33, 34]), some (pat [33]), (pat [34]), .Analogy, true, false⟩,
  ⟨(pat [33]), some (pat [46, 34, 33]), (pat [34]), .Analogy, false, false⟩,
  ⟨(pat [46, 34, 33]), some (pat [33]), (pat [34]), .Analogy, true, false⟩,
  ⟨(pat [45, 33, 49, 0, 0, 34, 40]), none, (pat [46, 33, 49, 0, 0, 34, 40]), .StructuralIntersection, false, false⟩,
  ⟨(pat [45, 48, 34, 33, 40]), none, (pat [46, 48, 34, 33, 40]), .StructuralIntersection, false, false⟩,
  ⟨(pat [45, 49, 34, 31, 40]), some (pat [46, 33, 31]), (pat [45, 49, 34, 33, 40]), .Analogy, false, false⟩,
  ⟨(pat [46, 33, 31]), some (pat [45, 49, 34, 31, 40]), (pat [45, 49, 34, 33, 40]), .Analogy, true, false⟩,
  ⟨(pat [45, 34, 48, 0, 0, 31, 40]), some (pat [46, 33, 31]), (pat [45, 34, 48, 0, 0, 33, 40]), .Analogy, false, false⟩,
  ⟨(pat [46, 33, 31]), some (pat [45, 34, 48, 0, 0, 31, 40]), (pat [45, 34, 48, 0, 0, 33, 40]), .Analogy, true, false⟩,
  ⟨(pat [46, 49, 49, 28, 40, 29, 40]), none, (pat [46, 28, 29]), .StructuralIntersection, false, false⟩,
  ⟨(pat [46, 48, 48, 28, 40, 29, 40]), none, (pat [46, 28, 29]), .StructuralIntersection, false, false⟩,
  ⟨(pat [45, 49, 31, 28, 29]), none, (pat [45, 49, 31, 28, 40]), .StructuralDeduction, false, false⟩,
  ⟨(pat [45, 49, 31, 28, 29]), none, (pat [45, 49, 31, 29, 40]), .StructuralDeduction, false, false⟩,
  ⟨(pat [45, 31, 48, 0, 0, 28, 29]), none, (pat [45, 31, 48, 0, 0, 28, 40]), .StructuralDeduction, false, false⟩,
  ⟨(pat [45, 31, 48, 0, 0, 28, 29]), none, (pat [45, 31, 48, 0, 0, 29, 40]), .StructuralDeduction, false, false⟩,
  ⟨(pat [45, 43, 31, 33, 34]), none, (pat [45, 33, 31]), .StructuralDeduction, false, false⟩,
  ⟨(pat [45, 31, 42, 0, 0, 33, 34]), none, (pat [45, 31, 33]), .StructuralDeduction, false, false⟩,
  ⟨(pat [45, 43, 31, 33, 34]), none, (pat [45, 34, 31]), .StructuralDeduction, false, false⟩,
  ⟨(pat [45, 31, 42, 0, 0, 33, 34]), none, (pat [45, 31, 34]), .StructuralDeduction, false, false⟩,
  ⟨(pat [45, 56, 31, 28, 33]), none, (pat [45, 28, 31]), .StructuralDeduction, false, false⟩,
  ⟨(pat [45, 31, 53, 0, 0, 29, 33]), none, (pat [45, 31, 29]), .StructuralDeduction, false, false⟩,
  ⟨(pat [45, 56, 31, 28, 33]), none, (pat [45, 33, 31]), .StructuralDeductionNegated, false, false⟩,
  ⟨(pat [45, 31, 53, 0, 0, 29, 33]), none, (pat [45, 31, 33]), .StructuralDeductionNegated, false, false⟩,
  ⟨(pat [45, 34, 31]), some (pat [45, 33, 31]), (pat [45, 43, 31, 34, 33]), .Intersection, false, false⟩,
  ⟨(pat [45, 33, 31]), some (pat [45, 34, 31]), (pat [45, 43, 31, 34, 33]), .Intersection, true, false⟩,
  ⟨(pat [45, 34, 31]), some (pat [45, 33, 31]), (pat [45, 42, 31, 34, 33]), .Union, false, false⟩,
  ⟨(pat [45, 33, 31]), some (pat [45, 34, 31]), (pat [45, 42, 31, 34, 33]), .Union, true, false⟩,
  ⟨(pat [45, 34, 31]), some (pat [45, 33, 31]), (pat [45, 56, 31, 34, 33]), .Difference, false, false⟩,
  ⟨(pat [45, 33, 31]), some (pat [45, 34, 31]), (pat [45, 56, 31, 34, 33]), .Difference, true, false⟩,
  ⟨(pat [45, 31, 34]), some (pat [45, 31, 33]), (pat [45, 31, 42, 0, 0, 34, 33]), .Intersection, false, false⟩,
  ⟨(pat [45, 31, 33]), some (pat [45, 31, 34]), (pat [45, 31, 42, 0, 0, 34, 33]), .Intersection, true, false⟩,
  ⟨(pat [45, 31, 34]), some (pat [45, 31, 33]), (pat [45, 31, 43, 0, 0, 34, 33]), .Union, false, false⟩,
  ⟨(pat [45, 31, 33]), some (pat [45, 31, 34]), (pat [45, 31, 43, 0, 0, 34, 33]), .Union, true, false⟩,
  ⟨(pat [45, 31, 34]), some (pat [45, 31, 33]), (pat [45, 31, 53, 0, 0, 34, 33]), .Difference, false, false⟩,
  ⟨(pat [45, 31, 33]), some (pat [45, 31, 34]), (pat [45, 31, 53, 0, 0, 34, 33]), .Difference, true, false⟩,
  ⟨(pat [45, 33, 31]), some (pat [45, 43, 31, 33, 34]), (pat [45, 34, 31]), .DecomposePNN, false, false⟩,
  ⟨(pat [45, 43, 31, 33, 34]), some (pat [45, 33, 31]), (pat [45, 34, 31]), .DecomposePNN, true, false⟩,
  ⟨(pat [45, 34, 31]), some (pat [45, 43, 31, 33, 34]), (pat [45, 33, 31]), .DecomposePNN, false, false⟩,
  ⟨(pat [45, 43, 31, 33, 34]), some (pat [45, 34, 31]), (pat [45, 33, 31]), .DecomposePNN, true, false⟩,
  ⟨(pat [45, 33, 31]), some (pat [45, 42, 31, 33, 34]), (pat [45, 34, 31]), .DecomposeNPP, false, false⟩,
  ⟨(pat [45, 42, 31, 33, 34]), some (pat [45, 33, 31]), (pat [45, 34, 31]), .DecomposeNPP, true, false⟩,
  ⟨(pat [45, 34, 31]), some (pat [45, 42, 31, 33, 34]), (pat [45, 33, 31]), .DecomposeNPP, false, false⟩,
  ⟨(pat [45, 42, 31, 33, 34]), some (pat [45, 34, 31]), (pat [45, 33, 31]), .DecomposeNPP, true, false⟩,
  ⟨(pat [45, 33, 31]), some (pat [45, 56, 31, 33, 34]), (pat [45, 34, 31]), .DecomposePNP, false, false⟩,
  ⟨(pat [45, 56, 31, 33, 34]), some (pat [45, 33, 31]), (pat [45, 34, 31]), .DecomposePNP, true, false⟩,
  ⟨(pat [45, 33, 31]), some (pat [45, 56, 31, 34, 33]), (pat [45, 34, 31]), .DecomposeNNN, false, false⟩,
  ⟨(pat [45, 56, 31, 34, 33]), some (pat [45, 33, 31]), (pat [45, 34, 31]), .DecomposeNNN, true, false⟩,
  ⟨(pat [45, 31, 33]), some (pat [45, 31, 42, 0, 0, 33, 34]), (pat [45, 31, 34]), .DecomposePNN, false, false⟩,
  ⟨(pat [45, 31, 42, 0, 0, 33, 34]), some (pat [45, 31, 33]), (pat [45, 31, 34]), .DecomposePNN, true, false⟩,
  ⟨(pat [45, 31, 34]), some (pat [45, 31, 42, 0, 0, 33, 34]), (pat [45, 31, 33]), .DecomposePNN, false, false⟩,
  ⟨(pat [45, 31, 42, 0, 0, 33, 34]), some (pat [45, 31, 34]), (pat [45, 31, 33]), .DecomposePNN, true, false⟩,
  ⟨(pat [45, 31, 33]), some (pat [45, 31, 43, 0, 0, 33, 34]), (pat [45, 31, 34]), .DecomposeNPP, false, false⟩,
  ⟨(pat [45, 31, 43, 0, 0, 33, 34]), some (pat [45, 31, 33]), (pat [45, 31, 34]), .DecomposeNPP, true, false⟩,
  ⟨(pat [45, 31, 34]), some (pat [45, 31, 43, 0, 0, 33, 34]), (pat [45, 31, 33]), .DecomposeNPP, false, false⟩,
  ⟨(pat [45, 31, 43, 0, 0, 33, 34]), some (pat [45, 31, 34]), (pat [45, 31, 33]), .DecomposeNPP, true, false⟩,
  ⟨(pat [45, 31, 33]), some (pat [45, 31, 53, 0, 0, 33, 34]), (pat [45, 31, 34]), .DecomposePNP, false, false⟩,
  ⟨(pat [45, 31, 53, 0, 0, 33, 34]), some (pat [45, 31, 33]), (pat [45, 31, 34]), .DecomposePNP, true, false⟩,
  ⟨(pat [45, 31, 33]), some (pat [45, 31, 53, 0, 0, 34, 33]), (pat [45, 31, 34]), .DecomposeNNN, false, false⟩,
  ⟨(pat [45, 31, 53, 0, 0, 34, 33]), some (pat [45, 31, 33]), (pat [45, 31, 34]), .DecomposeNNN, true, false⟩,
  ⟨(pat [45, 41, 41, 28, 29, 33, 31]), none, (pat [45, 28, 33]), .StructuralDeduction, false, false⟩,
  ⟨(pat [45, 41, 41, 28, 29, 33, 31]), none, (pat [45, 29, 31]), .StructuralDeduction, false, false⟩,
  ⟨(pat [45, 41, 32, 28, 29]), none, (pat [45, 28, 50, 0, 0, 32, 29]), .StructuralIntersection, false, false⟩,
  ⟨(pat [45, 28, 50, 0, 0, 32, 29]), none, (pat [45, 41, 32, 28, 29]), .StructuralIntersection, false, false⟩,
  ⟨(pat [45, 41, 32, 28, 29]), none, (pat [45, 29, 54, 0, 0, 32, 28]), .StructuralIntersection, false, false⟩,
  ⟨(pat [45, 29, 54, 0, 0, 32, 28]), none, (pat [45, 41, 32, 28, 29]), .StructuralIntersection, false, false⟩,
  ⟨(pat [45, 32, 41, 0, 0, 28, 29]), none, (pat [45, 51, 28, 32, 29]), .StructuralIntersection, false, false⟩,
  ⟨(pat [45, 51, 28, 32, 29]), none, (pat [45, 32, 41, 0, 0, 28, 29]), .StructuralIntersection, false, false⟩,
  ⟨(pat [45, 32, 41, 0, 0, 28, 29]), none, (pat [45, 55, 29, 32, 28]), .StructuralIntersection, false, false⟩,
  ⟨(pat [45, 55, 29, 32, 28]), none, (pat [45, 32, 41, 0, 0, 28, 29]), .StructuralIntersection, false, false⟩,
  ⟨(pat [62, 49, 48, 32, 40, 34, 40]), some (pat [62, 49, 48, 33, 40, 34, 40]), (pat [45, 41, 57, 49, 49, 34, 40, 32, 40, 33, 40]), .FrequencyGreater, false, false⟩,
  ⟨(pat [62, 49, 48, 33, 40, 34, 40]), some (pat [62, 49, 48, 32, 40, 34, 40]), (pat [45, 41, 57, 49, 49, 34, 40, 32, 40, 33, 40]), .FrequencyGreater, true, false⟩,
  ⟨(pat [45, 41, 57, 28, 29, 34, 40]), some (pat [45, 41, 57, 29, 30, 34, 40]), (pat [45, 41, 57, 28, 30, 34, 40]), .Deduction, false, false⟩,
  ⟨(pat [45, 41, 57, 29, 30, 34, 40]), some (pat [45, 41, 57, 28, 29, 34, 40]), (pat [45, 41, 57, 28, 30, 34, 40]), .Deduction, true, false⟩,
  ⟨(pat [62, 49, 48, 32, 40, 34, 40]), some (pat [62, 49, 48, 33, 40, 34, 40]), (pat [45, 41, 46, 49, 49, 34, 40, 32, 40, 33, 40]), .FrequencyEqual, false, false⟩,
  ⟨(pat [62, 49, 48, 33, 40, 34, 40]), some (pat [62, 49, 48, 32, 40, 34, 40]), (pat [45, 41, 46, 49, 49, 34, 40, 32, 40, 33, 40]), .FrequencyEqual, true, false⟩,
  ⟨(pat [45, 41, 46, 28, 29, 34, 40]), some (pat [45, 41, 46, 29, 30, 34, 40]), (pat [45, 41, 46, 28, 30, 34, 40]), .Deduction, false, false⟩,
  ⟨(pat [45, 41, 46, 29, 30, 34, 40]), some (pat [45, 41, 46, 28, 29, 34, 40]), (pat [45, 41, 46, 28, 30, 34, 40]), .Deduction, true, false⟩,
  ⟨(pat [45, 41, 46, 28, 29, 34, 40]), none, (pat [45, 41, 46, 29, 28, 34, 40]), .StructuralIntersection, false, false⟩,
  ⟨(pat [45, 41, 32, 28, 29]), some (pat [45, 41, 32, 30, 29]), (pat [45, 30, 28]), .Abduction, false, false⟩,
  ⟨(pat [45, 41, 32, 30, 29]), some (pat [45, 41, 32, 28, 29]), (pat [45, 30, 28]), .Abduction, true, false⟩,
  ⟨(pat [45, 41, 32, 28, 29]), some (pat [45, 41, 32, 28, 30]), (pat [45, 30, 29]), .Abduction, false, false⟩,
  ⟨(pat [45, 41, 32, 28, 30]), some (pat [45, 41, 32, 28, 29]), (pat [45, 30, 29]), .Abduction, true, false⟩,
  ⟨(pat [45, 32, 41, 0, 0, 28, 29]), some (pat [45, 32, 41, 0, 0, 30, 29]), (pat [45, 30, 28]), .Induction, false, false⟩,
  ⟨(pat [45, 32, 41, 0, 0, 30, 29]), some (pat [45, 32, 41, 0, 0, 28, 29]), (pat [45, 30, 28]), .Induction, true, false⟩,
  ⟨(pat [45, 32, 41, 0, 0, 28, 29]), some (pat [45, 32, 41, 0, 0, 28, 30]), (pat [45, 30, 29]), .Induction, false, false⟩,
  ⟨(pat [45, 32, 41, 0, 0, 28, 30]), some (pat [45, 32, 41, 0, 0, 28, 29]), (pat [45, 30, 29]), .Induction, true, false⟩,
  ⟨(pat [45, 41, 32, 28, 29]), some (pat [45, 30, 28]), (pat [45, 41, 32, 30, 29]), .Deduction, false, false⟩,
  ⟨(pat [45, 30, 28]), some (pat [45, 41, 32, 28, 29]), (pat [45, 41, 32, 30, 29]), .Deduction, true, false⟩,
  ⟨(pat [45, 41, 32, 28, 29]), some (pat [45, 28, 30]), (pat [45, 41, 32, 30, 29]), .Induction, false, false⟩,
  ⟨(pat [45, 28, 30]), some (pat [45, 41, 32, 28, 29]), (pat [45, 41, 32, 30, 29]), .Induction, true, false⟩,
  ⟨(pat [45, 41, 32, 28, 29]), some (pat [46, 30, 28]), (pat [45, 41, 32, 30, 29]), .Analogy, false, false⟩,
  ⟨(pat [46, 30, 28]), some (pat [45, 41, 32, 28, 29]), (pat [45, 41, 32, 30, 29]), .Analogy, true, false⟩,
  ⟨(pat [45, 41, 32, 28, 29]), some (pat [45, 30, 29]), (pat [45, 41, 32, 28, 30]), .Deduction, false, false⟩,
  ⟨(pat [45, 30, 29]), some (pat [45, 41, 32, 28, 29]), (pat [45, 41, 32, 28, 30]), .Deduction, true, false⟩,
  ⟨(pat [45, 41, 32, 28, 29]), some (pat [45, 29, 30]), (pat [45, 41, 32, 28, 30]), .Induction, false, false⟩,
  ⟨(pat [45, 29, 30]), some (pat [45, 41, 32, 28, 29]), (pat [45, 41, 32, 28, 30]), .Induction, true, false⟩,
  ⟨(pat [45, 41, 32, 28, 29]), some (pat [46, 30, 29]), (pat [45, 41, 32, 28, 30]), .Analogy, false, false⟩,
  ⟨(pat [46, 30, 29]), some (pat [45, 41, 32, 28, 29]), (pat [45, 41, 32, 28, 30]), .Analogy, true, false⟩,
  ⟨(pat [45, 32, 41, 0, 0, 28, 29]), some (pat [45, 28, 30]), (pat [45, 32, 41, 0, 0, 30, 29]), .Deduction, false, false⟩,
  ⟨(pat [45, 28, 30]), some (pat [45, 32, 41, 0, 0, 28, 29]), (pat [45, 32, 41, 0, 0, 30, 29]), .Deduction, true, false⟩,
  ⟨(pat [45, 32, 41, 0, 0, 28, 29]), some (pat [45, 30, 28]), (pat [45, 32, 41, 0, 0, 30, 29]), .Abduction, false, false⟩,
  ⟨(pat [45, 30, 28]), some (pat [45, 32, 41, 0, 0, 28, 29]), (pat [45, 32, 41, 0, 0, 30, 29]), .Abduction, true, false⟩,
  ⟨(pat [45, 32, 41, 0, 0, 28, 29]), some (pat [46, 30, 28]), (pat [45, 32, 41, 0, 0, 30, 29]), .Analogy, false, false⟩,
  ⟨(pat [46, 30, 28]), some (pat [45, 32, 41, 0, 0, 28, 29]), (pat [45, 32, 41, 0, 0, 30, 29]), .Analogy, true, false⟩,
  ⟨(pat [45, 32, 41, 0, 0, 28, 29]), some (pat [45, 29, 30]), (pat [45, 32, 41, 0, 0, 28, 30]), .Deduction, false, false⟩,
  ⟨(pat [45, 29, 30]), some (pat [45, 32, 41, 0, 0, 28, 29]), (pat [45, 32, 41, 0, 0, 28, 30]), .Deduction, true, false⟩,
  ⟨(pat [45, 32, 41, 0, 0, 28, 29]), some (pat [45, 30, 29]), (pat [45, 32, 41, 0, 0, 28, 30]), .Abduction, false, false⟩,
  ⟨(pat [45, 30, 29]), some (pat [45, 32, 41, 0, 0, 28, 29]), (pat [45, 32, 41, 0, 0, 28, 30]), .Abduction, true, false⟩,
  ⟨(pat [45, 32, 41, 0, 0, 28, 29]), some (pat [46, 30, 29]), (pat [45, 32, 41, 0, 0, 28, 30]), .Analogy, false, false⟩,
  ⟨(pat [46, 30, 29]), some (pat [45, 32, 41, 0, 0, 28, 29]), (pat [45, 32, 41, 0, 0, 28, 30]), .Analogy, true, false⟩,
  ⟨(pat [45, 41, 32, 28, 29]), some (pat [45, 41, 32, 30, 29]), (pat [46, 28, 30]), .Comparison, false, false⟩,
  ⟨(pat [45, 41, 32, 30, 29]), some (pat [45, 41, 32, 28, 29]), (pat [46, 28, 30]), .Comparison, true, false⟩,
  ⟨(pat [45, 41, 32, 28, 29]), some (pat [45, 41, 32, 28, 30]), (pat [46, 29, 30]), .Comparison, false, false⟩,
  ⟨(pat [45, 41, 32, 28, 30]), some (pat [45, 41, 32, 28, 29]), (pat [46, 29, 30]), .Comparison, true, false⟩,
  ⟨(pat [45, 32, 41, 0, 0, 28, 29]), some (pat [45, 32, 41, 0, 0, 30, 29]), (pat [46, 28, 30]), .Comparison, false, false⟩,
  ⟨(pat [45, 32, 41, 0, 0, 30, 29]), some (pat [45, 32, 41, 0, 0, 28, 29]), (pat [46, 28, 30]), .Comparison, true, false⟩,
  ⟨(pat [45, 32, 41, 0, 0, 28, 29]), some (pat [45, 32, 41, 0, 0, 28, 30]), (pat [46, 29, 30]), .Comparison, false, false⟩,
  ⟨(pat [45, 32, 41, 0, 0, 28, 30]), some (pat [45, 32, 41, 0, 0, 28, 29]), (pat [46, 29, 30]), .Comparison, true, false⟩,
  ⟨(pat [58, 28, 40]), none, (pat [28]), .Negation, false, false⟩,
  ⟨(pat [44, 28, 29]), none, (pat [28]), .StructuralDeduction, false, false⟩,
  ⟨(pat [44, 28, 29]), none, (pat [29]), .StructuralDeduction, false, false⟩,
  ⟨(pat [44, 28, 29]), none, (pat [44, 29, 28]), .StructuralIntersection, false, false⟩,
  ⟨(pat [33]), some (pat [44, 33, 28]), (pat [28]), .DecomposePNN, false, false⟩,
  ⟨(pat [44, 33, 28]), some (pat [33]), (pat [28]), .DecomposePNN, true, false⟩,
  ⟨(pat [33]), some (pat [61, 33, 28]), (pat [28]), .DecomposeNPP, false, false⟩,
  ⟨(pat [61, 33, 28]), some (pat [33]), (pat [28]), .DecomposeNPP, true, false⟩,
  ⟨(pat [33]), some (pat [44, 58, 28, 33, 40]), (pat [28]), .DecomposeNNN, false, false⟩,
  ⟨(pat [44, 58, 28, 33, 40]), some (pat [33]), (pat [28]), .DecomposeNNN, true, false⟩,
  ⟨(pat [33]), some (pat [61, 58, 28, 33, 40]), (pat [28]), .DecomposePPP, false, false⟩,
  ⟨(pat [61, 58, 28, 33, 40]), some (pat [33]), (pat [28]), .DecomposePPP, true, false⟩,
  ⟨(pat [59, 33, 31]), some (pat [59, 31, 34]), (pat [59, 33, 34]), .Deduction, false, false⟩,
  ⟨(pat [59, 31, 34]), some (pat [59, 33, 31]), (pat [59, 33, 34]), .Deduction, true, false⟩,
  ⟨(pat [59, 28, 29]), some (pat [59, 28, 30]), (pat [59, 30, 29]), .Induction, false, false⟩,
  ⟨(pat [59, 28, 30]), some (pat [59, 28, 29]), (pat [59, 30, 29]), .Induction, true, false⟩,
  ⟨(pat [59, 28, 30]), some (pat [59, 29, 30]), (pat [59, 29, 28]), .Abduction, false, false⟩,
  ⟨(pat [59, 29, 30]), some (pat [59, 28, 30]), (pat [59, 29, 28]), .Abduction, true, false⟩,
  ⟨(pat [59, 28, 29]), some (pat [59, 29, 30]), (pat [59, 30, 28]), .Exemplification, false, false⟩,
  ⟨(pat [59, 29, 30]), some (pat [59, 28, 29]), (pat [59, 30, 28]), .Exemplification, true, false⟩,
  ⟨(pat [59, 28, 30]), some (pat [59, 29, 30]), (pat [59, 44, 30, 28, 29]), .Union, false, false⟩,
  ⟨(pat [59, 29, 30]), some (pat [59, 28, 30]), (pat [59, 44, 30, 28, 29]), .Union, true, false⟩,
  ⟨(pat [59, 28, 30]), some (pat [59, 29, 30]), (pat [59, 61, 30, 28, 29]), .Intersection, false, false⟩,
  ⟨(pat [59, 29, 30]), some (pat [59, 28, 30]), (pat [59, 61, 30, 28, 29]), .Intersection, true, false⟩,
  ⟨(pat [59, 30, 28]), some (pat [59, 30, 29]), (pat [59, 30, 44, 0, 0, 28, 29]), .Intersection, false, false⟩,
  ⟨(pat [59, 30, 29]), some (pat [59, 30, 28]), (pat [59, 30, 44, 0, 0, 28, 29]), .Intersection, true, false⟩,
  ⟨(pat [59, 30, 28]), some (pat [59, 30, 29]), (pat [59, 30, 61, 0, 0, 28, 29]), .Union, false, false⟩,
  ⟨(pat [59, 30, 29]), some (pat [59, 30, 28]), (pat [59, 30, 61, 0, 0, 28, 29]), .Union, true, false⟩,
  ⟨(pat [59, 44, 31, 33, 34]), some (pat [59, 33, 31]), (pat [34]), .Abduction, false, false⟩,
  ⟨(pat [59, 33, 31]), some (pat [59, 44, 31, 33, 34]), (pat [34]), .Abduction, true, false⟩,
  ⟨(pat [59, 44, 34, 30, 31]), some (pat [59, 33, 31]), (pat [59, 44, 34, 30, 33]), .Deduction, false, false⟩,
  ⟨(pat [59, 33, 31]), some (pat [59, 44, 34, 30, 31]), (pat [59, 44, 34, 30, 33]), .Deduction, true, false⟩,
  ⟨(pat [59, 44, 31, 30, 34]), some (pat [59, 44, 31, 30, 33]), (pat [59, 33, 34]), .Abduction, false, false⟩,
  ⟨(pat [59, 44, 31, 30, 33]), some (pat [59, 44, 31, 30, 34]), (pat [59, 33, 34]), .Abduction, true, false⟩,
  ⟨(pat [59, 44, 34, 30, 31]), some (pat [59, 31, 33]), (pat [59, 44, 34, 30, 33]), .Induction, false, false⟩,
  ⟨(pat [59, 31, 33]), some (pat [59, 44, 34, 30, 31]), (pat [59, 44, 34, 30, 33]), .Induction, true, false⟩,
  ⟨(pat [60, 33, 34]), none, (pat [60, 34, 33]), .StructuralIntersection, false, false⟩,
  ⟨(pat [59, 33, 34]), some (pat [59, 34, 33]), (pat [60, 33, 34]), .Intersection, false, false⟩,
  ⟨(pat [59, 34, 33]), some (pat [59, 33, 34]), (pat [60, 33, 34]), .Intersection, true, false⟩,
  ⟨(pat [59, 34, 31]), some (pat [59, 33, 31]), (pat [60, 33, 34]), .Comparison, false, false⟩,
  ⟨(pat [59, 33, 31]), some (pat [59, 34, 31]), (pat [60, 33, 34]), .Comparison, true, false⟩,
  ⟨(pat [59, 31, 34]), some (pat [59, 31, 33]), (pat [60, 33, 34]), .Comparison, false, false⟩,
  ⟨(pat [59, 31, 33]), some (pat [59, 31, 34]), (pat [60, 33, 34]), .Comparison, true, false⟩,
  ⟨(pat [59, 31, 34]), some (pat [60, 33, 31]), (pat [59, 33, 34]), .Analogy, false, false⟩,
  ⟨(pat [60, 33, 31]), some (pat [59, 31, 34]), (pat [59, 33, 34]), .Analogy, true, false⟩,
  ⟨(pat [59, 34, 31]), some (pat [60, 33, 31]), (pat [59, 34, 33]), .Analogy, false, false⟩,
  ⟨(pat [60, 33, 31]), some (pat [59, 34, 31]), (pat [59, 34, 33]), .Analogy, true, false⟩,
  ⟨(pat [60, 31, 34]), some (pat [60, 33, 31]), (pat [60, 33, 34]), .Resemblance, false, false⟩,
  ⟨(pat [60, 33, 31]), some (pat [60, 31, 34]), (pat [60, 33, 34]), .Resemblance, true, false⟩,
  ⟨(pat [45, 30, 28]), some (pat [45, 30, 29]), (pat [59, 45, 45, 30, 29, 30, 28]), .Induction, false, true⟩,
  ⟨(pat [45, 30, 29]), some (pat [45, 30, 28]), (pat [59, 45, 45, 30, 29, 30, 28]), .Induction, true, true⟩,
  ⟨(pat [45, 28, 30]), some (pat [45, 29, 30]), (pat [59, 45, 45, 29, 30, 28, 30]), .Induction, false, true⟩,
  ⟨(pat [45, 29, 30]), some (pat [45, 28, 30]), (pat [59, 45, 45, 29, 30, 28, 30]), .Induction, true, true⟩,
  ⟨(pat [45, 30, 28]), some (pat [45, 30, 29]), (pat [60, 45, 45, 30, 29, 30, 28]), .Comparison, false, true⟩,
  ⟨(pat [45, 30, 29]), some (pat [45, 30, 28]), (pat [60, 45, 45, 30, 29, 30, 28]), .Comparison, true, true⟩,
  ⟨(pat [45, 28, 30]), some (pat [45, 29, 30]), (pat [60, 45, 45, 29, 30, 28, 30]), .Comparison, false, true⟩,
  ⟨(pat [45, 29, 30]), some (pat [45, 28, 30]), (pat [60, 45, 45, 29, 30, 28, 30]), .Comparison, true, true⟩,
  ⟨(pat [58, 45, 40, 30, 28]), some (pat [45, 30, 29]), (pat [59, 45, 58, 30, 29, 45, 40, 0, 0, 0, 0, 30, 28]), .Induction, false, true⟩,
  ⟨(pat [45, 30, 29]), some (pat [58, 45, 40, 30, 28]), (pat [59, 45, 58, 30, 29, 45, 40, 0, 0, 0, 0, 30, 28]), .Induction, true, true⟩,
  ⟨(pat [58, 45, 40, 28, 30]), some (pat [45, 29, 30]), (pat [59, 45, 58, 29, 30, 45, 40, 0, 0, 0, 0, 28, 30]), .Induction, false, true⟩,
  ⟨(pat [45, 29, 30]), some (pat [58, 45, 40, 28, 30]), (pat [59, 45, 58, 29, 30, 45, 40, 0, 0, 0, 0, 28, 30]), .Induction, true, true⟩,
  ⟨(pat [58, 45, 40, 30, 28]), some (pat [45, 30, 29]), (pat [60, 45, 58, 30, 29, 45, 40, 0, 0, 0, 0, 30, 28]), .Comparison, false, true⟩,
  ⟨(pat [45, 30, 29]), some (pat [58, 45, 40, 30, 28]), (pat [60, 45, 58, 30, 29, 45, 40, 0, 0, 0, 0, 30, 28]), .Comparison, true, true⟩,
  ⟨(pat [58, 45, 40, 28, 30]), some (pat [45, 29, 30]), (pat [60, 45, 58, 29, 30, 45, 40, 0, 0, 0, 0, 28, 30]), .Comparison, false, true⟩,
  ⟨(pat [45, 29, 30]), some (pat [58, 45, 40, 28, 30]), (pat [60, 45, 58, 29, 30, 45, 40, 0, 0, 0, 0, 28, 30]), .Comparison, true, true⟩,
  ⟨(pat [45, 30, 28]), some (pat [58, 45, 40, 30, 29]), (pat [59, 58, 45, 45, 40, 30, 28, 30, 29]), .Induction, false, true⟩,
  ⟨(pat [58, 45, 40, 30, 29]), some (pat [45, 30, 28]), (pat [59, 58, 45, 45, 40, 30, 28, 30, 29]), .Induction, true, true⟩,
  ⟨(pat [45, 28, 30]), some (pat [58, 45, 40, 29, 30]), (pat [59, 58, 45, 45, 40, 28, 30, 29, 30]), .Induction, false, true⟩,
  ⟨(pat [58, 45, 40, 29, 30]), some (pat [45, 28, 30]), (pat [59, 58, 45, 45, 40, 28, 30, 29, 30]), .Induction, true, true⟩,
  ⟨(pat [45, 30, 28]), some (pat [58, 45, 40, 30, 29]), (pat [60, 58, 45, 45, 40, 30, 28, 30, 29]), .Comparison, false, true⟩,
  ⟨(pat [58, 45, 40, 30, 29]), some (pat [45, 30, 28]), (pat [60, 58, 45, 45, 40, 30, 28, 30, 29]), .Comparison, true, true⟩,
  ⟨(pat [45, 28, 30]), some (pat [58, 45, 40, 29, 30]), (pat [60, 58, 45, 45, 40, 28, 30, 29, 30]), .Comparison, false, true⟩,
  ⟨(pat [58, 45, 40, 29, 30]), some (pat [45, 28, 30]), (pat [60, 58, 45, 45, 40, 28, 30, 29, 30]), .Comparison, true, true⟩,
  ⟨(pat [45, 30, 28]), some (pat [45, 30, 29]), (pat [44, 45, 45, 30, 29, 30, 28]), .Intersection, false, true⟩,
  ⟨(pat [45, 30, 29]), some (pat [45, 30, 28]), (pat [44, 45, 45, 30, 29, 30, 28]), .Intersection, true, true⟩,
  ⟨(pat [45, 28, 30]), some (pat [45, 29, 30]), (pat [44, 45, 45, 29, 30, 28, 30]), .Intersection, false, true⟩,
  ⟨(pat [45, 29, 30]), some (pat [45, 28, 30]), (pat [44, 45, 45, 29, 30, 28, 30]), .Intersection, true, true⟩,
  ⟨(pat [58, 45, 40, 30, 28]), some (pat [45, 30, 29]), (pat [44, 45, 58, 30, 29, 45, 40, 0, 0, 0, 0, 30, 28]), .Intersection, false, true⟩,
  ⟨(pat [45, 30, 29]), some (pat [58, 45, 40, 30, 28]), (pat [44, 45, 58, 30, 29, 45, 40, 0, 0, 0, 0, 30, 28]), .Intersection, true, true⟩,
  ⟨(pat [58, 45, 40, 28, 30]), some (pat [45, 29, 30]), (pat [44, 45, 58, 29, 30, 45, 40, 0, 0, 0, 0, 28, 30]), .Intersection, false, true⟩,
  ⟨(pat [45, 29, 30]), some (pat [58, 45, 40, 28, 30]), (pat [44, 45, 58, 29, 30, 45, 40, 0, 0, 0, 0, 28, 30]), .Intersection, true, true⟩,
  ⟨(pat [45, 30, 28]), some (pat [58, 45, 40, 30, 29]), (pat [44, 58, 45, 45, 40, 30, 28, 30, 29]), .Intersection, false, true⟩,
  ⟨(pat [58, 45, 40, 30, 29]), some (pat [45, 30, 28]), (pat [44, 58, 45, 45, 40, 30, 28, 30, 29]), .Intersection, true, true⟩,
  ⟨(pat [45, 28, 30]), some (pat [58, 45, 40, 29, 30]), (pat [44, 58, 45, 45, 40, 28, 30, 29, 30]), .Intersection, false, true⟩,
  ⟨(pat [58, 45, 40, 29, 30]), some (pat [45, 28, 30]), (pat [44, 58, 45, 45, 40, 28, 30, 29, 30]), .Intersection, true, true⟩,
  ⟨(pat [59, 45, 45, 2, 29, 2, 30]), some (pat [28]), (pat [44, 28, 59, 0, 0, 45, 45, 0, 0, 0, 0, 2, 29, 2, 30]), .Intersection, false, true⟩,
  ⟨(pat [28]), some (pat [59, 45, 45, 2, 29, 2, 30]), (pat [44, 28, 59, 0, 0, 45, 45, 0, 0, 0, 0, 2, 29, 2, 30]), .Intersection, true, true⟩,
  ⟨(pat [44, 45, 45, 1, 29, 1, 30]), some (pat [28]), (pat [59, 28, 44, 0, 0, 45, 45, 0, 0, 0, 0, 1, 29, 1, 30]), .Induction, false, true⟩,
  ⟨(pat [28]), some (pat [44, 45, 45, 1, 29, 1, 30]), (pat [59, 28, 44, 0, 0, 45, 45, 0, 0, 0, 0, 1, 29, 1, 30]), .Induction, true, true⟩,
  ⟨(pat [59, 29, 30]), some (pat [28]), (pat [59, 44, 30, 28, 29]), .Induction, false, true⟩,
  ⟨(pat [28]), some (pat [59, 29, 30]), (pat [59, 44, 30, 28, 29]), .Induction, true, true⟩,
  ⟨(pat [45, 41, 32, 28, 29]), some (pat [45, 41, 33, 29, 28]), (pat [59, 45, 45, 41, 33, 41, 32, 29, 28, 0, 0, 28, 29]), .Induction, false, true⟩,
  ⟨(pat [45, 41, 33, 29, 28]), some (pat [45, 41, 32, 28, 29]), (pat [59, 45, 45, 41, 33, 41, 32, 29, 28, 0, 0, 28, 29]), .Induction, true, true⟩,
  ⟨(pat [58, 45, 40, 41, 32, 0, 0, 29, 28]), some (pat [45, 41, 33, 28, 29]), (pat [59, 45, 58, 41, 33, 45, 40, 28, 29, 0, 0, 41, 32, 0, 0, 0, 0, 0, 0, 0, 0, 0, 0, 29, 28]), .Induction, false, true⟩,
  ⟨(pat [45, 41, 33, 28, 29]), some (pat [58, 45, 40, 41, 32, 0, 0, 29, 28]), (pat [59, 45, 58, 41, 33, 45, 40, 28, 29, 0, 0, 41, 32, 0, 0, 0, 0, 0, 0, 0, 0, 0, 0, 29, 28]), .Induction, true, true⟩,
  ⟨(pat [45, 41, 32, 29, 28]), some (pat [58, 45, 40, 41, 33, 0, 0, 28, 29]), (pat [59, 58, 45, 45, 40, 41, 32, 41, 33, 0, 0, 29, 28, 0, 0, 28, 29]), .Induction, false, true⟩,
  ⟨(pat [58, 45, 40, 41, 33, 0, 0, 28, 29]), some (pat [45, 41, 32, 29, 28]), (pat [59, 58, 45, 45, 40, 41, 32, 41, 33, 0, 0, 29, 28, 0, 0, 28, 29]), .Induction, true, true⟩,
  ⟨(pat [45, 41, 32, 28, 29]), some (pat [45, 41, 33, 29, 30]), (pat [44, 45, 45, 41, 32, 41, 33, 28, 29, 0, 0, 29, 30]), .Intersection, false, false⟩,
  ⟨(pat [45, 41, 33, 29, 30]), some (pat [45, 41, 32, 28, 29]), (pat [44, 45, 45, 41, 32, 41, 33, 28, 29, 0, 0, 29, 30]), .Intersection, true, false⟩,
  ⟨(pat [45, 41, 31, 28, 30]), some (pat [44, 45, 45, 41, 32, 41, 33, 28, 29, 0, 0, 29, 30]), (pat [59, 44, 45, 45, 45, 41, 31, 41, 32, 41, 33, 28, 30, 0, 0, 28, 29, 0, 0, 29, 30]), .Induction, false, true⟩,
  ⟨(pat [44, 45, 45, 41, 32, 41, 33, 28, 29, 0, 0, 29, 30]), some (pat [45, 41, 31, 28, 30]), (pat [59, 44, 45, 45, 45, 41, 31, 41, 32, 41, 33, 28, 30, 0, 0, 28, 29, 0, 0, 29, 30]), .Induction, true, true⟩]

/-- The generated reductions (src/NAL.h 245-266), in order. -/
def nalReductions : List Reduction := [
  ((pat [45, 42, 31, 28, 28]), (pat [45, 28, 31])),
  ((pat [45, 31, 42, 0, 0, 28, 28]), (pat [45, 31, 28])),
  ((pat [45, 43, 31, 28, 28]), (pat [45, 28, 31])),
  ((pat [45, 31, 43, 0, 0, 28, 28]), (pat [45, 31, 28])),
  ((pat [44, 28, 28]), (pat [28])),
  ((pat [61, 28, 28]), (pat [28])),
  ((pat [45, 43, 31, 49, 49, 0, 0, 28, 40, 29, 40]), (pat [45, 49, 31, 28, 29])),
  ((pat [45, 31, 43, 0, 0, 49, 49, 0, 0, 0, 0, 28, 40, 29, 40]), (pat [45, 31, 49, 0, 0, 28, 29])),
  ((pat [45, 43, 31, 49, 49, 0, 0, 28, 29, 30, 40]), (pat [45, 49, 31, 52, 30, 0, 0, 28, 29])),
  ((pat [45, 31, 43, 0, 0, 49, 49, 0, 0, 0, 0, 28, 29, 30, 40]), (pat [45, 31, 49, 0, 0, 52, 30, 0, 0, 0, 0, 28, 29])),
  ((pat [45, 43, 31, 49, 49, 0, 0, 30, 40, 28, 29]), (pat [45, 49, 31, 30, 52, 0, 0, 0, 0, 28, 29])),
  ((pat [45, 31, 43, 0, 0, 49, 49, 0, 0, 0, 0, 30, 40, 28, 29]), (pat [45, 31, 49, 0, 0, 30, 52, 0, 0, 0, 0, 0, 0, 28, 29])),
  ((pat [45, 42, 31, 48, 48, 0, 0, 28, 40, 29, 40]), (pat [45, 48, 31, 28, 29])),
  ((pat [45, 31, 42, 0, 0, 48, 48, 0, 0, 0, 0, 28, 40, 29, 40]), (pat [45, 31, 48, 0, 0, 28, 29])),
  ((pat [45, 42, 31, 48, 48, 0, 0, 28, 29, 30, 40]), (pat [45, 48, 31, 52, 30, 0, 0, 28, 29])),
  ((pat [45, 31, 42, 0, 0, 48, 48, 0, 0, 0, 0, 28, 29, 30, 40]), (pat [45, 31, 48, 0, 0, 52, 30, 0, 0, 0, 0, 28, 29])),
  ((pat [45, 42, 31, 48, 48, 0, 0, 28, 40, 29, 30]), (pat [45, 48, 31, 28, 52, 0, 0, 0, 0, 29, 30])),
  ((pat [45, 31, 42, 0, 0, 48, 48, 0, 0, 0, 0, 28, 40, 29, 30]), (pat [45, 31, 48, 0, 0, 28, 52, 0, 0, 0, 0, 0, 0, 29, 30])),
  ((pat [45, 49, 31, 52, 40, 0, 0, 28, 29]), (pat [45, 49, 31, 28, 29])),
  ((pat [45, 31, 49, 0, 0, 52, 40, 0, 0, 0, 0, 28, 29]), (pat [45, 31, 49, 0, 0, 28, 29])),
  ((pat [45, 48, 31, 52, 40, 0, 0, 28, 29]), (pat [45, 48, 31, 28, 29])),
  ((pat [45, 31, 48, 0, 0, 52, 40, 0, 0, 0, 0, 28, 29]), (pat [45, 31, 48, 0, 0, 28, 29]))]

end ONA
