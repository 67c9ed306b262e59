import Verif.Model.Arith
import Verif.Model.Config
/-
Model of src/Truth.c. `TRUTH_EVIDENTIAL_HORIZON` and `TRUTH_PROJECTION_DECAY` are variables in C but nothing in
/repo assigns them, so they are constants here.
-/
namespace ONA

/-- `OCCURRENCE_ETERNAL` (src/Truth.h 54). -/
def OCCURRENCE_ETERNAL : Int := -1

/-- `Truth` (src/Truth.h 43-48). -/
structure Truth where
  frequency : ℚ
  confidence : ℚ
deriving DecidableEq, Repr

variable [Arith]

/-- src/Config.h 162 -/
def RELIANCE : ℚ := rnd (9 / 10)
/-- src/Config.h 164, src/Truth.c 27 -/
def TRUTH_EVIDENTIAL_HORIZON : ℚ := 1
/-- src/Config.h 166, src/Truth.c 28 -/
def TRUTH_PROJECTION_DECAY : ℚ := rnd (8 / 10)
/-- src/Config.h 168 -/
def MAX_CONFIDENCE : ℚ := rnd (99 / 100)
/-- src/Config.h 170 -/
def MIN_CONFIDENCE : ℚ := rnd (1 / 100)
/-- `STRUCTURAL_TRUTH` (src/Truth.h 55). -/
def STRUCTURAL_TRUTH : Truth := ⟨1, RELIANCE⟩

/-- `Truth_w2c` (src/Truth.c 31-34). -/
def Truth_w2c (w : ℚ) : R ℚ := fdiv w (fadd w TRUTH_EVIDENTIAL_HORIZON)

/-- `Truth_c2w` (src/Truth.c 36-39). -/
def Truth_c2w (c : ℚ) : R ℚ := fdiv (fmul TRUTH_EVIDENTIAL_HORIZON c) (fsub 1 c)

/-- `Truth_Expectation` (src/Truth.c 41-44). -/
def Truth_Expectation (v : Truth) : ℚ := fadd (fmul v.confidence (fsub v.frequency (1 / 2))) (1 / 2)

/-- `Truth_Revision` (src/Truth.c 46-67). -/
def Truth_Revision (v1 v2 : Truth) : R Truth := do
  let w1 ← Truth_c2w v1.confidence
  let w2 ← Truth_c2w v2.confidence
  let w := fadd w1 w2
  if MAX_CONFIDENCE = 1 ∧ v1.confidence = 1 then .ok v1
  else if MAX_CONFIDENCE = 1 ∧ v2.confidence = 1 then .ok v2
  else do
    let f ← fdiv (fadd (fmul w1 v1.frequency) (fmul w2 v2.frequency)) w
    let c ← Truth_w2c w
    .ok ⟨cMIN 1 f, cMIN MAX_CONFIDENCE (cMAX (cMAX c v1.confidence) v2.confidence)⟩

/-- `Truth_Deduction` (src/Truth.c 69-74). -/
def Truth_Deduction (v1 v2 : Truth) : Truth :=
  let f := fmul v1.frequency v2.frequency
  ⟨f, fmul (fmul v1.confidence v2.confidence) f⟩

/-- `Truth_Abduction` (src/Truth.c 76-80). -/
def Truth_Abduction (v1 v2 : Truth) : R Truth := do
  let c ← Truth_w2c (fmul (fmul v1.frequency v1.confidence) v2.confidence)
  .ok ⟨v2.frequency, c⟩

/-- `Truth_Induction` (src/Truth.c 82-85). -/
def Truth_Induction (v1 v2 : Truth) : R Truth := Truth_Abduction v2 v1

/-- `Truth_Intersection` (src/Truth.c 87-91). -/
def Truth_Intersection (v1 v2 : Truth) : Truth :=
  ⟨fmul v1.frequency v2.frequency, fmul v1.confidence v2.confidence⟩

/-- `Truth_Eternalize` (src/Truth.c 93-96). -/
def Truth_Eternalize (v : Truth) : R Truth := do
  let c ← Truth_w2c v.confidence
  .ok ⟨v.frequency, c⟩

/-- `Truth_Projection` (src/Truth.c 98-103). -/
def Truth_Projection (v : Truth) (originalTime targetTime : Int) : Truth :=
  let difference := (targetTime - originalTime).natAbs
  if originalTime = OCCURRENCE_ETERNAL then v
  else ⟨v.frequency, fmul v.confidence (Arith.pow TRUTH_PROJECTION_DECAY difference)⟩

/-- `Truth_Exemplification` (src/Truth.c 117-121). -/
def Truth_Exemplification (v1 v2 : Truth) : R Truth := do
  let c ← Truth_w2c (fmul (fmul (fmul v1.frequency v2.frequency) v1.confidence) v2.confidence)
  .ok ⟨1, c⟩

/-- `Truth_or` (src/Truth.c 123-126). -/
def Truth_or (a b : ℚ) : ℚ := fsub 1 (fmul (fsub 1 a) (fsub 1 b))

/-- `Truth_Comparison` (src/Truth.c 128-133). -/
def Truth_Comparison (v1 v2 : Truth) : R Truth := do
  let f0 := Truth_or v1.frequency v2.frequency
  let f ← if f0 = 0 then .ok 0 else fdiv (fmul v1.frequency v2.frequency) f0
  let c ← Truth_w2c (fmul (fmul f0 v1.confidence) v2.confidence)
  .ok ⟨f, c⟩

/-- `Truth_Analogy` (src/Truth.c 135-139). -/
def Truth_Analogy (v1 v2 : Truth) : Truth :=
  ⟨fmul v1.frequency v2.frequency, fmul (fmul v1.confidence v2.confidence) v2.frequency⟩

/-- `Truth_Resemblance` (src/Truth.c 141-145). -/
def Truth_Resemblance (v1 v2 : Truth) : Truth :=
  ⟨fmul v1.frequency v2.frequency,
   fmul (fmul v1.confidence v2.confidence) (Truth_or v1.frequency v2.frequency)⟩

/-- `Truth_Union` (src/Truth.c 147-151). -/
def Truth_Union (v1 v2 : Truth) : Truth :=
  ⟨Truth_or v1.frequency v2.frequency, fmul v1.confidence v2.confidence⟩

/-- `Truth_Difference` (src/Truth.c 153-157). -/
def Truth_Difference (v1 v2 : Truth) : Truth :=
  ⟨fmul v1.frequency (fsub 1 v2.frequency), fmul v1.confidence v2.confidence⟩

/-- `Truth_Conversion` (src/Truth.c 159-162). -/
def Truth_Conversion (v1 _v2 : Truth) : R Truth := do
  let c ← Truth_w2c (fmul v1.frequency v1.confidence)
  .ok ⟨1, c⟩

/-- `Truth_Negation` (src/Truth.c 164-168). -/
def Truth_Negation (v1 _v2 : Truth) : Truth := ⟨fsub 1 v1.frequency, v1.confidence⟩

/-- `Truth_StructuralDeduction` (src/Truth.c 170-173). -/
def Truth_StructuralDeduction (v1 _v2 : Truth) : Truth := Truth_Deduction v1 STRUCTURAL_TRUTH

/-- `Truth_StructuralDeductionNegated` (src/Truth.c 175-178). -/
def Truth_StructuralDeductionNegated (v1 v2 : Truth) : Truth :=
  Truth_Negation (Truth_Deduction v1 STRUCTURAL_TRUTH) v2

/-- `Truth_Equal` (src/Truth.c 180-183). -/
def Truth_Equal (v1 v2 : Truth) : Bool :=
  decide (v1.confidence = v2.confidence) && decide (v1.frequency = v2.frequency)

/-- `Truth_StructuralIntersection` (src/Truth.c 185-188). -/
def Truth_StructuralIntersection (v1 _v2 : Truth) : Truth := Truth_Intersection v1 STRUCTURAL_TRUTH

/-- `Truth_DecomposePNN` (src/Truth.c 190-195). -/
def Truth_DecomposePNN (v1 v2 : Truth) : Truth :=
  let fn := fmul v1.frequency (fsub 1 v2.frequency)
  ⟨fsub 1 fn, fmul (fmul fn v1.confidence) v2.confidence⟩

/-- `Truth_DecomposeNPP` (src/Truth.c 197-202). -/
def Truth_DecomposeNPP (v1 v2 : Truth) : Truth :=
  let f := fmul (fsub 1 v1.frequency) v2.frequency
  ⟨f, fmul (fmul f v1.confidence) v2.confidence⟩

/-- `Truth_DecomposePNP` (src/Truth.c 204-209). -/
def Truth_DecomposePNP (v1 v2 : Truth) : Truth :=
  let f := fmul v1.frequency (fsub 1 v2.frequency)
  ⟨f, fmul (fmul f v1.confidence) v2.confidence⟩

/-- `Truth_DecomposePPP` (src/Truth.c 211-214). -/
def Truth_DecomposePPP (v1 v2 : Truth) : Truth := Truth_DecomposeNPP (Truth_Negation v1 v2) v2

/-- `Truth_DecomposeNNN` (src/Truth.c 216-221). -/
def Truth_DecomposeNNN (v1 v2 : Truth) : Truth :=
  let fn := fmul (fsub 1 v1.frequency) (fsub 1 v2.frequency)
  ⟨fsub 1 fn, fmul (fmul fn v1.confidence) v2.confidence⟩

/-- `Truth_AnonymousAnalogy` (src/Truth.c 223-228). -/
def Truth_AnonymousAnalogy (v1 v2 : Truth) : R Truth := do
  let c ← Truth_w2c (fmul v2.frequency v2.confidence)
  let v3 : Truth := ⟨1, c⟩
  .ok (Truth_Analogy v1 v3)

/-- `Truth_GoalDeduction` (src/Truth.c 230-235). -/
def Truth_GoalDeduction (v1 v2 : Truth) : Truth :=
  let res1 := Truth_Deduction v1 v2
  let res2 := Truth_Negation (Truth_Deduction (Truth_Negation v1 v2) v2) v2
  if res1.confidence ≥ res2.confidence then res1 else res2

/-- `Truth_FrequencyGreater` (src/Truth.c 237-242). -/
def Truth_FrequencyGreater (v1 v2 : Truth) : Truth :=
  if v1.frequency > v2.frequency then ⟨1, fmul v1.confidence v2.confidence⟩ else ⟨0, 0⟩

/-- `Truth_FrequencyEqual` (src/Truth.c 244-249). -/
def Truth_FrequencyEqual (v1 v2 : Truth) : Truth :=
  if v1.frequency = v2.frequency then ⟨1, fmul v1.confidence v2.confidence⟩ else ⟨0, 0⟩

end ONA
