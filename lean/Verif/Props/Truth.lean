import Verif.Proofs.Truth
import Mathlib.Data.List.Basic
/-
Properties C20-C24: truth functions.
-/
namespace ONA

section
variable [Arith]

/-- **C20.** Every two-premise truth function other than revision is defined on all truth values of the unit
square, stays in it, and never raises the confidence above that of the first premise - under any rounding. -/
theorem C20_truth_functions : ∀ F ∈ allTruthFunctions, TruthFnOk F := by
  unfold allTruthFunctions
  simp only [List.forall_mem_cons, List.not_mem_nil, false_implies, implies_true, and_true]
  have pureOk : ∀ {G : Truth → Truth → Truth},
      (∀ v1 v2 : Truth, v1.Valid → v2.Valid → (G v1 v2).Valid ∧ (G v1 v2).confidence ≤ v1.confidence) →
      TruthFnOk (pureFn G) := fun h v1 v2 h1 h2 => ⟨_, rfl, (h v1 v2 h1 h2).1, (h v1 v2 h1 h2).2⟩
  refine ⟨?_, ?_, ?_, ?_, ?_, ?_, ?_, ?_, ?_, ?_, ?_, ?_, ?_, ?_, ?_, ?_, ?_, ?_, ?_, ?_, ?_, ?_, ?_, ?_⟩
  · exact pureOk fun v1 v2 h1 h2 => ⟨(Truth_Deduction_valid h1 h2).1, (Truth_Deduction_valid h1 h2).2.1⟩
  · intro v1 v2 h1 h2
    obtain ⟨t, a, b, c, d⟩ := Truth_Abduction_valid h2 h1
    exact ⟨t, a, b, d⟩
  · exact pureOk fun v1 v2 h1 h2 => Truth_Intersection_valid h1 h2
  · refine pureOk fun v1 v2 h1 h2 => ?_
    have hn := Truth_Negation_valid v2 h1
    have hd1 := Truth_Deduction_valid h1 h2
    have hd2 := Truth_Deduction_valid hn h2
    unfold Truth_GoalDeduction
    dsimp only
    split
    · exact ⟨hd1.1, hd1.2.1⟩
    · exact ⟨Truth_Negation_valid v2 hd2.1, hd2.2.1⟩
  · intro v1 v2 h1 h2
    obtain ⟨t, a, b, c, d⟩ := Truth_Abduction_valid h1 h2
    exact ⟨t, a, b, c⟩
  · intro v1 v2 h1 h2
    have hf := fmul_unit h1.f h2.f
    have hfc := fmul_unit hf h1.c
    obtain ⟨c, e, hc, hle⟩ := w2c_unit (fmul_unit hfc h2.c)
    unfold Truth_Exemplification
    rw [e]
    exact ⟨_, rfl, Truth.Valid.mk' unit01_one hc,
      le_trans hle (le_trans (fmul_le_left hfc h2.c) (fmul_le_right hf h1.c))⟩
  · intro v1 v2 h1 h2
    have hor := Truth_or_unit h1.f h2.f
    have hfc := fmul_unit hor h1.c
    obtain ⟨c, e, hc, hle⟩ := w2c_unit (fmul_unit hfc h2.c)
    have hcle : c ≤ v1.confidence := le_trans hle (le_trans (fmul_le_left hfc h2.c) (fmul_le_right hor h1.c))
    unfold Truth_Comparison
    dsimp only
    by_cases h0 : Truth_or v1.frequency v2.frequency = 0
    · rw [if_pos h0, e]
      exact ⟨_, rfl, Truth.Valid.mk' unit01_zero hc, hcle⟩
    · rw [if_neg h0, e]
      unfold fdiv
      rw [if_neg h0]
      refine ⟨_, rfl, Truth.Valid.mk' ⟨isRepr_rnd _, rnd_nonneg ?_, rnd_le_one ?_⟩ hc, hcle⟩
      · exact div_nonneg (fmul_unit h1.f h2.f).nonneg hor.nonneg
      · have hpos : 0 < Truth_or v1.frequency v2.frequency := lt_of_le_of_ne hor.nonneg (Ne.symm h0)
        rw [div_le_one hpos]
        exact fmul_le_or h1.f h2.f h0
  · exact pureOk fun v1 v2 h1 h2 => Truth_Analogy_valid h1 h2
  · refine pureOk fun v1 v2 h1 h2 => ?_
    have hc := fmul_unit h1.c h2.c
    have ho := Truth_or_unit h1.f h2.f
    exact ⟨Truth.Valid.mk' (fmul_unit h1.f h2.f) (fmul_unit hc ho),
      le_trans (fmul_le_left hc ho) (fmul_le_left h1.c h2.c)⟩
  · exact pureOk fun v1 v2 h1 _ => ⟨(Truth_Deduction_valid h1 STRUCTURAL_TRUTH_valid).1,
      (Truth_Deduction_valid h1 STRUCTURAL_TRUTH_valid).2.1⟩
  · exact pureOk fun v1 v2 h1 _ => ⟨Truth_Negation_valid v2 (Truth_Deduction_valid h1 STRUCTURAL_TRUTH_valid).1,
      (Truth_Deduction_valid h1 STRUCTURAL_TRUTH_valid).2.1⟩
  · exact pureOk fun v1 v2 h1 _ => Truth_Intersection_valid h1 STRUCTURAL_TRUTH_valid
  · exact pureOk fun v1 v2 h1 h2 =>
      ⟨Truth.Valid.mk' (Truth_or_unit h1.f h2.f) (fmul_unit h1.c h2.c), fmul_le_left h1.c h2.c⟩
  · exact pureOk fun v1 v2 h1 h2 =>
      ⟨Truth.Valid.mk' (fmul_unit h1.f (fsub_unit h2.f)) (fmul_unit h1.c h2.c), fmul_le_left h1.c h2.c⟩
  · intro v1 v2 h1 _
    obtain ⟨c, e, hc, hle⟩ := w2c_unit (fmul_unit h1.f h1.c)
    unfold Truth_Conversion
    rw [e]
    exact ⟨_, rfl, Truth.Valid.mk' unit01_one hc, le_trans hle (fmul_le_right h1.f h1.c)⟩
  · exact pureOk fun v1 v2 h1 _ => ⟨Truth_Negation_valid v2 h1, le_refl _⟩
  · refine pureOk fun v1 v2 h1 h2 => ?_
    have hf := fmul_unit h1.f (fsub_unit h2.f)
    obtain ⟨a, b⟩ := decompose_conf hf h1.c h2.c
    exact ⟨Truth.Valid.mk' (fsub_unit hf) a, b⟩
  · exact pureOk fun v1 v2 h1 h2 => Truth_DecomposeNPP_valid h1 h2
  · refine pureOk fun v1 v2 h1 h2 => ?_
    have hf := fmul_unit h1.f (fsub_unit h2.f)
    obtain ⟨a, b⟩ := decompose_conf hf h1.c h2.c
    exact ⟨Truth.Valid.mk' hf a, b⟩
  · exact pureOk fun v1 v2 h1 h2 => Truth_DecomposeNPP_valid (Truth_Negation_valid v2 h1) h2
  · refine pureOk fun v1 v2 h1 h2 => ?_
    have hf := fmul_unit (fsub_unit h1.f) (fsub_unit h2.f)
    obtain ⟨a, b⟩ := decompose_conf hf h1.c h2.c
    exact ⟨Truth.Valid.mk' (fsub_unit hf) a, b⟩
  · intro v1 v2 h1 h2
    obtain ⟨c, e, hc, hle⟩ := w2c_unit (fmul_unit h2.f h2.c)
    unfold Truth_AnonymousAnalogy
    rw [e]
    have := Truth_Analogy_valid h1 (Truth.Valid.mk' unit01_one hc)
    exact ⟨_, rfl, this.1, this.2⟩
  · refine pureOk fun v1 v2 h1 h2 => ?_
    unfold Truth_FrequencyGreater
    split
    · exact ⟨Truth.Valid.mk' unit01_one (fmul_unit h1.c h2.c), fmul_le_left h1.c h2.c⟩
    · exact ⟨Truth.Valid.mk' unit01_zero unit01_zero, h1.c_nonneg⟩
  · refine pureOk fun v1 v2 h1 h2 => ?_
    unfold Truth_FrequencyEqual
    split
    · exact ⟨Truth.Valid.mk' unit01_one (fmul_unit h1.c h2.c), fmul_le_left h1.c h2.c⟩
    · exact ⟨Truth.Valid.mk' unit01_zero unit01_zero, h1.c_nonneg⟩

/-- **C20 (confidence below one).** Confidence below a bound is preserved, in particular below 1 and below
`MAX_CONFIDENCE`. -/
theorem C20_confidence_bound (F : Truth → Truth → R Truth) (hF : F ∈ allTruthFunctions) (v1 v2 t : Truth)
    (h1 : v1.Valid) (h2 : v2.Valid) (ht : F v1 v2 = .ok t) (B : ℚ) (hB : v1.confidence < B) : t.confidence < B := by
  obtain ⟨t', a, -, c⟩ := C20_truth_functions F hF v1 v2 h1 h2
  rw [ht] at a; cases a
  exact lt_of_le_of_lt c hB

/-- **C20 (one-premise functions and expectation).** -/
theorem C20_eternalize (v : Truth) (h : v.Valid) :
    ∃ t, Truth_Eternalize v = .ok t ∧ t.Valid ∧ t.frequency = v.frequency ∧ t.confidence ≤ v.confidence := by
  obtain ⟨c, e, hc, hle⟩ := w2c_unit h.c
  unfold Truth_Eternalize
  rw [e]
  exact ⟨_, rfl, Truth.Valid.mk' h.f hc, rfl, hle⟩

theorem C20_expectation (v : Truth) (h : v.Valid) : 0 ≤ Truth_Expectation v ∧ Truth_Expectation v ≤ 1 := by
  have hd1 : fsub v.frequency (1 / 2) ≤ 1 / 2 := rnd_le isRepr_half (by linarith [h.f_le])
  have hd2 : -(1 / 2) ≤ fsub v.frequency (1 / 2) := by
    refine le_rnd ?_ (by linarith [h.f_nonneg])
    unfold IsRepr; rw [rnd_neg, rnd_half]
  have hm1 : fmul v.confidence (fsub v.frequency (1 / 2)) ≤ 1 / 2 := by
    refine rnd_le isRepr_half ?_
    nlinarith [h.c_nonneg, h.c_le]
  have hm2 : -(1 / 2) ≤ fmul v.confidence (fsub v.frequency (1 / 2)) := by
    refine le_rnd ?_ ?_
    · unfold IsRepr; rw [rnd_neg, rnd_half]
    · nlinarith [h.c_nonneg, h.c_le]
  constructor
  · exact rnd_nonneg (by linarith)
  · exact rnd_le_one (by linarith)

/-- **C23.** Projection keeps the frequency, never raises the confidence, is the identity on eternal truth and on
zero distance, stays in the unit square and weakens with the distance. -/
theorem C23_projection (v : Truth) (h : v.Valid) (o t : Int) :
    (Truth_Projection v o t).Valid ∧ (Truth_Projection v o t).frequency = v.frequency ∧
    (Truth_Projection v o t).confidence ≤ v.confidence ∧
    (o = OCCURRENCE_ETERNAL → Truth_Projection v o t = v) ∧ Truth_Projection v o o = v ∧
    (∀ t', o ≠ OCCURRENCE_ETERNAL → (t - o).natAbs ≤ (t' - o).natAbs →
      (Truth_Projection v o t').confidence ≤ (Truth_Projection v o t).confidence) := by
  have hd : ∀ n, Unit01 (Arith.pow TRUTH_PROJECTION_DECAY n) := by
    intro n
    have h0 : 0 ≤ TRUTH_PROJECTION_DECAY := le_trans (by norm_num) DECAY_range.1
    have h1 : TRUTH_PROJECTION_DECAY ≤ 1 := le_trans DECAY_range.2 (by norm_num)
    refine ⟨Arith.pow_repr _ _, Arith.pow_nonneg _ h0, ?_⟩
    have := Arith.pow_anti h0 h1 (Nat.zero_le n)
    rwa [Arith.pow_zero] at this
  have hself : Truth_Projection v o o = v := by
    unfold Truth_Projection
    simp only [sub_self, Int.natAbs_zero, Arith.pow_zero]
    split
    · rfl
    · have : fmul v.confidence 1 = v.confidence := by unfold fmul; rw [mul_one]; exact h.c_repr
      rw [this]
  refine ⟨?_, ?_, ?_, ?_, hself, ?_⟩
  · unfold Truth_Projection; dsimp only; split
    · exact h
    · exact Truth.Valid.mk' h.f (fmul_unit h.c (hd _))
  · unfold Truth_Projection; dsimp only; split <;> rfl
  · unfold Truth_Projection; dsimp only; split
    · exact le_refl _
    · exact fmul_le_left h.c (hd _)
  · intro ho; unfold Truth_Projection; simp [ho]
  · intro t' ho hle
    unfold Truth_Projection
    simp only [if_neg ho]
    refine rnd_mono (mul_le_mul_of_nonneg_left ?_ h.c_nonneg)
    exact Arith.pow_anti (le_trans (by norm_num) DECAY_range.1) (le_trans DECAY_range.2 (by norm_num)) hle

/-! ### Revision under any rounding -/

theorem c2w_spec {c : ℚ} (h : Unit01 c) (h1 : c < 1) : ∃ w, Truth_c2w c = .ok w ∧ IsRepr w ∧ c ≤ w := by
  unfold Truth_c2w fdiv
  have hne : fsub 1 c ≠ 0 := rnd_sub_ne isRepr_one h.repr (ne_of_gt h1)
  rw [if_neg hne]
  have hu := fsub_unit h
  have hpos : 0 < fsub 1 c := lt_of_le_of_ne hu.nonneg (Ne.symm hne)
  have hm : fmul TRUTH_EVIDENTIAL_HORIZON c = c := by
    unfold fmul TRUTH_EVIDENTIAL_HORIZON; rw [one_mul]; exact h.repr
  rw [hm]
  refine ⟨_, rfl, isRepr_rnd _, le_rnd h.repr ?_⟩
  rw [le_div_iff₀ hpos]
  exact mul_le_of_le_one_right h.nonneg hu.le_one

omit [Arith] in
theorem cMIN_eq (a b : ℚ) : cMIN a b = min a b := by
  unfold cMIN; split
  · rw [min_eq_left (le_of_lt ‹_›)]
  · rw [min_eq_right (not_lt.1 ‹_›)]
omit [Arith] in
theorem cMAX_eq (a b : ℚ) : cMAX a b = max a b := by
  unfold cMAX; split
  · rw [max_eq_left (le_of_lt ‹_›)]
  · rw [max_eq_right (not_lt.1 ‹_›)]

/-- **C21/C22 (any rounding).** For valid premises with confidence below 1, at least one of them positive, revision
is defined, stays in the unit square, its confidence is at most `MAX_CONFIDENCE` and at least that of either
premise, capped at `MAX_CONFIDENCE`. -/
theorem C22_revision_defined_partial (v1 v2 : Truth) (h1 : v1.Valid) (h2 : v2.Valid) (hc1 : v1.confidence < 1)
    (hc2 : v2.confidence < 1) (hpos : 0 < v1.confidence ∨ 0 < v2.confidence) :
    ∃ t, Truth_Revision v1 v2 = .ok t ∧ t.Valid ∧ t.confidence ≤ MAX_CONFIDENCE ∧
      min MAX_CONFIDENCE v1.confidence ≤ t.confidence ∧ min MAX_CONFIDENCE v2.confidence ≤ t.confidence := by
  obtain ⟨w1, e1, r1, l1⟩ := c2w_spec h1.c hc1
  obtain ⟨w2, e2, r2, l2⟩ := c2w_spec h2.c hc2
  have hw1 : 0 ≤ w1 := le_trans h1.c_nonneg l1
  have hw2 : 0 ≤ w2 := le_trans h2.c_nonneg l2
  unfold Truth_Revision
  rw [e1, e2]
  simp only [R.ok_bind]
  have hM := MAX_CONFIDENCE_range
  have hMne : ¬ (MAX_CONFIDENCE = 1) := by intro h; rw [h] at hM; norm_num at hM
  simp only [hMne, false_and, if_false]
  have hw : 0 < fadd w1 w2 := by
    rcases hpos with h | h
    · exact lt_of_lt_of_le (lt_of_lt_of_le h l1) (le_rnd r1 (by linarith))
    · exact lt_of_lt_of_le (lt_of_lt_of_le h l2) (le_rnd r2 (by linarith))
  unfold fdiv
  rw [if_neg (ne_of_gt hw)]
  obtain ⟨c, ec, uc, -⟩ := w2c_spec (w := fadd w1 w2) (isRepr_rnd _) hw.le
  simp only [R.ok_bind, ec]
  refine ⟨_, rfl, ?_, ?_, ?_, ?_⟩
  · refine Truth.Valid.mk' ⟨?_, ?_, ?_⟩ ⟨?_, ?_, ?_⟩
    · rw [cMIN]; split
      · exact isRepr_one
      · exact isRepr_rnd _
    · rw [cMIN_eq]
      refine le_min (by norm_num) (rnd_nonneg (div_nonneg (rnd_nonneg (add_nonneg ?_ ?_)) hw.le))
      · exact rnd_nonneg (mul_nonneg hw1 h1.f_nonneg)
      · exact rnd_nonneg (mul_nonneg hw2 h2.f_nonneg)
    · rw [cMIN_eq]; exact min_le_left _ _
    · rw [cMIN]; split
      · exact isRepr_rnd _
      · rw [cMAX]; split
        · rw [cMAX]; split
          · exact uc.repr
          · exact h1.c_repr
        · exact h2.c_repr
    · rw [cMIN_eq, cMAX_eq]
      exact le_min (le_trans (by norm_num) hM.1) (le_trans h2.c_nonneg (le_max_right _ _))
    · rw [cMIN_eq]; exact le_trans (min_le_left _ _) (le_trans hM.2 (by norm_num))
  · show cMIN _ _ ≤ _
    rw [cMIN_eq]; exact min_le_left _ _
  · show _ ≤ cMIN _ _
    rw [cMIN_eq, cMAX_eq, cMAX_eq]
    exact min_le_min_left _ (le_trans (le_max_right _ _) (le_max_left _ _))
  · show _ ≤ cMIN _ _
    rw [cMIN_eq, cMAX_eq]
    exact min_le_min_left _ (le_max_right _ _)

/-- **C22 is false at the borders**: with a premise of confidence 1, or with both confidences 0 (all accepted as
input), revision divides by zero. -/
theorem C22_revision_undefined (f1 f2 c2 : ℚ) :
    Truth_Revision ⟨f1, 1⟩ ⟨f2, c2⟩ = .error .nan ∧ Truth_Revision ⟨f1, 0⟩ ⟨f2, 0⟩ = .error .nan := by
  have h1 : Truth_c2w 1 = .error .nan := by
    unfold Truth_c2w fdiv fsub; simp [rnd_zero]
  have h0 : Truth_c2w 0 = .ok 0 := by
    unfold Truth_c2w fdiv fsub fmul; simp [rnd_zero, rnd_one]
  have hM := MAX_CONFIDENCE_range
  have hMne : ¬ (MAX_CONFIDENCE = 1) := by intro h; rw [h] at hM; norm_num at hM
  constructor
  · unfold Truth_Revision; simp [h1]
  · unfold Truth_Revision
    simp only [h0, R.ok_bind, hMne, false_and, if_false]
    unfold fdiv fadd
    simp [rnd_zero]

end

/-! ### Exact arithmetic: the NAL definitions -/

set_option linter.unusedSimpArgs false

section
open NAL
attribute [local instance] exactArith

/-- **C24.** In exact arithmetic every truth function equals its NAL definition: strong inference by extended
boolean operators, weak inference by amounts of evidence. -/
theorem C24_strong (f1 c1 f2 c2 : ℚ) :
    Truth_Deduction ⟨f1, c1⟩ ⟨f2, c2⟩ = ⟨NAL.and f1 f2, NAL.and (NAL.and f1 f2) (NAL.and c1 c2)⟩ ∧
    Truth_Analogy ⟨f1, c1⟩ ⟨f2, c2⟩ = ⟨NAL.and f1 f2, NAL.and f2 (NAL.and c1 c2)⟩ ∧
    Truth_Resemblance ⟨f1, c1⟩ ⟨f2, c2⟩ = ⟨NAL.and f1 f2, NAL.and (NAL.or f1 f2) (NAL.and c1 c2)⟩ ∧
    Truth_Intersection ⟨f1, c1⟩ ⟨f2, c2⟩ = ⟨NAL.and f1 f2, NAL.and c1 c2⟩ ∧
    Truth_Union ⟨f1, c1⟩ ⟨f2, c2⟩ = ⟨NAL.or f1 f2, NAL.and c1 c2⟩ ∧
    Truth_Difference ⟨f1, c1⟩ ⟨f2, c2⟩ = ⟨NAL.and f1 (NAL.not f2), NAL.and c1 c2⟩ ∧
    Truth_Negation ⟨f1, c1⟩ ⟨f2, c2⟩ = ⟨NAL.not f1, c1⟩ ∧
    Truth_DecomposePNN ⟨f1, c1⟩ ⟨f2, c2⟩ = ⟨NAL.not (NAL.and f1 (NAL.not f2)), NAL.and (NAL.and f1 (NAL.not f2)) (NAL.and c1 c2)⟩ ∧
    Truth_DecomposeNPP ⟨f1, c1⟩ ⟨f2, c2⟩ = ⟨NAL.and (NAL.not f1) f2, NAL.and (NAL.and (NAL.not f1) f2) (NAL.and c1 c2)⟩ ∧
    Truth_DecomposePNP ⟨f1, c1⟩ ⟨f2, c2⟩ = ⟨NAL.and f1 (NAL.not f2), NAL.and (NAL.and f1 (NAL.not f2)) (NAL.and c1 c2)⟩ ∧
    Truth_DecomposePPP ⟨f1, c1⟩ ⟨f2, c2⟩ = ⟨NAL.and f1 f2, NAL.and (NAL.and f1 f2) (NAL.and c1 c2)⟩ ∧
    Truth_DecomposeNNN ⟨f1, c1⟩ ⟨f2, c2⟩ =
      ⟨NAL.not (NAL.and (NAL.not f1) (NAL.not f2)), NAL.and (NAL.and (NAL.not f1) (NAL.not f2)) (NAL.and c1 c2)⟩ ∧
    Truth_StructuralDeduction ⟨f1, c1⟩ ⟨f2, c2⟩ = ⟨f1, NAL.and f1 (NAL.and c1 (9 / 10))⟩ ∧
    Truth_StructuralDeductionNegated ⟨f1, c1⟩ ⟨f2, c2⟩ = ⟨NAL.not f1, NAL.and f1 (NAL.and c1 (9 / 10))⟩ ∧
    Truth_StructuralIntersection ⟨f1, c1⟩ ⟨f2, c2⟩ = ⟨f1, NAL.and c1 (9 / 10)⟩ := by
  refine ⟨?_, ?_, ?_, ?_, ?_, ?_, ?_, ?_, ?_, ?_, ?_, ?_, ?_, ?_, ?_⟩ <;>
    simp only [Truth_Deduction, Truth_Analogy, Truth_Resemblance, Truth_Intersection, Truth_Union, Truth_Difference,
      Truth_Negation, Truth_DecomposePNN, Truth_DecomposeNPP, Truth_DecomposePNP, Truth_DecomposePPP,
      Truth_DecomposeNNN, Truth_StructuralDeduction, Truth_StructuralDeductionNegated, Truth_StructuralIntersection,
      STRUCTURAL_TRUTH, RELIANCE, Truth_or, fmul, fsub, rnd, Arith.rnd, NAL.and, NAL.or, NAL.not, Truth.mk.injEq] <;>
    constructor <;> first | trivial | ring

/-- `w2c` in exact arithmetic. -/
theorem w2c_exact (w : ℚ) (h : 0 ≤ w) : Truth_w2c w = .ok (w / (w + 1)) := by
  unfold Truth_w2c fdiv fadd TRUTH_EVIDENTIAL_HORIZON
  have : (rnd (w + 1) : ℚ) = w + 1 := rfl
  rw [this, if_neg (by linarith)]
  rfl

theorem C24_weak (f1 c1 f2 c2 : ℚ) (hf1 : 0 ≤ f1) (hc1 : 0 ≤ c1) (hf2 : 0 ≤ f2) (hc2 : 0 ≤ c2)
    (hf2' : f2 ≤ 1) :
    (∃ t, Truth_Abduction ⟨f1, c1⟩ ⟨f2, c2⟩ = .ok t ∧
      FromEvidence t (NAL.and (NAL.and f1 f2) (NAL.and c1 c2)) (NAL.and f1 (NAL.and c1 c2))) ∧
    (∃ t, Truth_Induction ⟨f1, c1⟩ ⟨f2, c2⟩ = .ok t ∧
      FromEvidence t (NAL.and (NAL.and f1 f2) (NAL.and c1 c2)) (NAL.and f2 (NAL.and c1 c2))) ∧
    (∃ t, Truth_Exemplification ⟨f1, c1⟩ ⟨f2, c2⟩ = .ok t ∧
      FromEvidence t (NAL.and (NAL.and f1 f2) (NAL.and c1 c2)) (NAL.and (NAL.and f1 f2) (NAL.and c1 c2))) ∧
    (∃ t, Truth_Comparison ⟨f1, c1⟩ ⟨f2, c2⟩ = .ok t ∧
      FromEvidence t (NAL.and (NAL.and f1 f2) (NAL.and c1 c2)) (NAL.and (NAL.or f1 f2) (NAL.and c1 c2))) ∧
    (∃ t, Truth_Conversion ⟨f1, c1⟩ ⟨f2, c2⟩ = .ok t ∧ FromEvidence t (NAL.and f1 c1) (NAL.and f1 c1)) ∧
    (∃ t, Truth_AnonymousAnalogy ⟨f1, c1⟩ ⟨f2, c2⟩ = .ok t ∧ t.frequency = f1 ∧
      t.confidence = NAL.and c1 (f2 * c2 / (f2 * c2 + 1))) := by
  have hor : 0 ≤ NAL.or f1 f2 := by unfold NAL.or; nlinarith
  refine ⟨?_, ?_, ?_, ?_, ?_, ?_⟩
  · unfold Truth_Abduction
    rw [w2c_exact _ (by simp only [fmul, rnd, Arith.rnd]; positivity)]
    refine ⟨_, rfl, ?_, ?_⟩
    · simp only [fmul, rnd, Arith.rnd, NAL.and]; ring
    · intro h; simp only [fmul, rnd, Arith.rnd, NAL.and] at *
      rw [eq_div_iff h]; ring
  · unfold Truth_Induction Truth_Abduction
    rw [w2c_exact _ (by simp only [fmul, rnd, Arith.rnd]; positivity)]
    refine ⟨_, rfl, ?_, ?_⟩
    · simp only [fmul, rnd, Arith.rnd, NAL.and]; ring
    · intro h; simp only [fmul, rnd, Arith.rnd, NAL.and] at *
      rw [eq_div_iff h]; ring
  · unfold Truth_Exemplification
    rw [w2c_exact _ (by simp only [fmul, rnd, Arith.rnd]; positivity)]
    refine ⟨_, rfl, ?_, ?_⟩
    · simp only [fmul, rnd, Arith.rnd, NAL.and]; ring
    · intro h; simp only at *
      rw [div_self h]
  · unfold Truth_Comparison
    have e : Truth_or f1 f2 = NAL.or f1 f2 := rfl
    dsimp only
    rw [e]
    have hw : Truth_w2c (fmul (fmul (NAL.or f1 f2) c1) c2) = .ok ((NAL.or f1 f2) * c1 * c2 / ((NAL.or f1 f2) * c1 * c2 + 1)) := by
      rw [w2c_exact _ (by simp only [fmul, rnd, Arith.rnd]; positivity)]; rfl
    rw [hw]
    by_cases h0 : NAL.or f1 f2 = 0
    · rw [if_pos h0]
      refine ⟨_, rfl, ?_, ?_⟩
      · simp [NAL.and, h0]
      · intro h; simp [NAL.and, h0] at h
    · rw [if_neg h0]
      unfold fdiv
      rw [if_neg h0]
      refine ⟨_, rfl, ?_, ?_⟩
      · simp only [NAL.and]; ring
      · intro h; simp only [fmul, rnd, Arith.rnd, NAL.and] at *
        have hc : c1 * c2 ≠ 0 := right_ne_zero_of_mul h
        rw [div_eq_div_iff h0 h]; ring
  · unfold Truth_Conversion
    rw [w2c_exact _ (by simp only [fmul, rnd, Arith.rnd]; positivity)]
    refine ⟨_, rfl, ?_, ?_⟩
    · simp only [fmul, rnd, Arith.rnd, NAL.and]
    · intro h; simp only at *
      rw [div_self h]
  · unfold Truth_AnonymousAnalogy
    rw [w2c_exact _ (by simp only [fmul, rnd, Arith.rnd]; positivity)]
    refine ⟨_, rfl, ?_, ?_⟩
    · simp [Truth_Analogy, fmul, rnd, Arith.rnd]
    · simp [Truth_Analogy, fmul, rnd, Arith.rnd, NAL.and]

/-- **C24 (other).** Expectation, eternalization, goal deduction, comparison predicates. -/
theorem C24_other (f1 c1 f2 c2 : ℚ) (hc1 : 0 ≤ c1) :
    Truth_Expectation ⟨f1, c1⟩ = c1 * (f1 - 1 / 2) + 1 / 2 ∧
    Truth_Eternalize ⟨f1, c1⟩ = .ok ⟨f1, c1 / (c1 + 1)⟩ ∧
    (Truth_GoalDeduction ⟨f1, c1⟩ ⟨f2, c2⟩ =
      if (1 - f1) * f2 * c1 * c2 ≤ f1 * f2 * c1 * c2 then ⟨f1 * f2, f1 * f2 * c1 * c2⟩
      else ⟨1 - (1 - f1) * f2, (1 - f1) * f2 * c1 * c2⟩) ∧
    (Truth_FrequencyGreater ⟨f1, c1⟩ ⟨f2, c2⟩ = if f2 < f1 then ⟨1, c1 * c2⟩ else ⟨0, 0⟩) ∧
    (Truth_FrequencyEqual ⟨f1, c1⟩ ⟨f2, c2⟩ = if f1 = f2 then ⟨1, c1 * c2⟩ else ⟨0, 0⟩) ∧
    (Truth_Equal ⟨f1, c1⟩ ⟨f2, c2⟩ = true ↔ f1 = f2 ∧ c1 = c2) := by
  refine ⟨rfl, ?_, ?_, rfl, rfl, ?_⟩
  · unfold Truth_Eternalize
    rw [w2c_exact _ hc1]; rfl
  · simp only [Truth_GoalDeduction, Truth_Deduction, Truth_Negation, fmul, fsub, rnd, Arith.rnd, ge_iff_le]
    have e1 : c1 * c2 * ((1 - f1) * f2) = (1 - f1) * f2 * c1 * c2 := by ring
    have e2 : c1 * c2 * (f1 * f2) = f1 * f2 * c1 * c2 := by ring
    rw [e1, e2]
  · unfold Truth_Equal
    simp only [Bool.and_eq_true, decide_eq_true_eq]
    tauto

/-- Revision in closed form. -/
theorem revision_exact (v1 v2 : Truth) (h1 : 0 ≤ v1.confidence) (h1' : v1.confidence < 1)
    (h2 : 0 ≤ v2.confidence) (h2' : v2.confidence < 1) (hpos : 0 < v1.confidence ∨ 0 < v2.confidence) :
    let w := weight v1.confidence + weight v2.confidence
    0 < w ∧ Truth_Revision v1 v2 = .ok ⟨min 1 ((posWeight v1 + posWeight v2) / w),
      min (99 / 100) (max (max (w / (w + 1)) v1.confidence) v2.confidence)⟩ := by
  have e1 : ∀ c : ℚ, c < 1 → Truth_c2w c = .ok (weight c) := by
    intro c hc
    unfold Truth_c2w fdiv weight
    have a : fsub 1 c = 1 - c := rfl
    have b : fmul TRUTH_EVIDENTIAL_HORIZON c = c := by simp [fmul, TRUTH_EVIDENTIAL_HORIZON, rnd, Arith.rnd]
    rw [a, b, if_neg (by linarith)]
    rfl
  have w1 : 0 ≤ weight v1.confidence := div_nonneg h1 (by linarith)
  have w2 : 0 ≤ weight v2.confidence := div_nonneg h2 (by linarith)
  dsimp only
  have hw : 0 < weight v1.confidence + weight v2.confidence := by
    rcases hpos with h | h
    · have : 0 < weight v1.confidence := div_pos h (by linarith)
      linarith
    · have : 0 < weight v2.confidence := div_pos h (by linarith)
      linarith
  refine ⟨hw, ?_⟩
  unfold Truth_Revision
  rw [e1 _ h1', e1 _ h2']
  have hM : (MAX_CONFIDENCE : ℚ) = 99 / 100 := rfl
  have hMne : ¬ ((99 : ℚ) / 100 = 1) := by norm_num
  simp only [R.ok_bind, hM, hMne, false_and, if_false]
  have ea : fadd (weight v1.confidence) (weight v2.confidence) = weight v1.confidence + weight v2.confidence := rfl
  rw [ea, w2c_exact _ hw.le]
  unfold fdiv
  rw [if_neg hw.ne']
  simp only [R.ok_bind, cMIN_eq, cMAX_eq]
  congr 2
  · congr 1
    show (weight v1.confidence * v1.frequency + weight v2.confidence * v2.frequency) / _ = _
    unfold posWeight
    congr 1; ring

/-- **C21.** In exact arithmetic revision adds the amounts of positive and of total evidence (confidence capped at
0.99), so it is commutative; its frequency lies between the premises' frequencies and its confidence is not below
either premise's (up to the cap). -/
theorem C21_revision (v1 v2 : Truth) (h1 : v1.Valid) (h1' : v1.confidence < 1)
    (h2 : v2.Valid) (h2' : v2.confidence < 1) (hpos : 0 < v1.confidence ∨ 0 < v2.confidence) :
    ∃ t, Truth_Revision v1 v2 = .ok t ∧ Truth_Revision v2 v1 = .ok t ∧
      t.frequency = (posWeight v1 + posWeight v2) / (weight v1.confidence + weight v2.confidence) ∧
      (t.confidence < 99 / 100 → weight t.confidence = weight v1.confidence + weight v2.confidence) ∧
      min v1.frequency v2.frequency ≤ t.frequency ∧ t.frequency ≤ max v1.frequency v2.frequency ∧
      min (99 / 100) (max v1.confidence v2.confidence) ≤ t.confidence ∧ t.confidence ≤ 99 / 100 := by
  obtain ⟨hw, e⟩ := revision_exact v1 v2 h1.c_nonneg h1' h2.c_nonneg h2' hpos
  obtain ⟨-, e'⟩ := revision_exact v2 v1 h2.c_nonneg h2' h1.c_nonneg h1' hpos.symm
  have w1 : 0 ≤ weight v1.confidence := div_nonneg h1.c_nonneg (by linarith)
  have w2 : 0 ≤ weight v2.confidence := div_nonneg h2.c_nonneg (by linarith)
  have hmm : min v1.frequency v2.frequency ≤ (posWeight v1 + posWeight v2) / (weight v1.confidence + weight v2.confidence) ∧
      (posWeight v1 + posWeight v2) / (weight v1.confidence + weight v2.confidence) ≤ max v1.frequency v2.frequency := by
    unfold posWeight
    constructor
    · rw [le_div_iff₀ hw, mul_add]
      have a := mul_le_mul_of_nonneg_right (min_le_left v1.frequency v2.frequency) w1
      have b := mul_le_mul_of_nonneg_right (min_le_right v1.frequency v2.frequency) w2
      linarith
    · rw [div_le_iff₀ hw, mul_add]
      have a := mul_le_mul_of_nonneg_right (le_max_left v1.frequency v2.frequency) w1
      have b := mul_le_mul_of_nonneg_right (le_max_right v1.frequency v2.frequency) w2
      linarith
  have hf1 : min 1 ((posWeight v1 + posWeight v2) / (weight v1.confidence + weight v2.confidence)) =
      (posWeight v1 + posWeight v2) / (weight v1.confidence + weight v2.confidence) :=
    min_eq_right (le_trans hmm.2 (max_le h1.f_le h2.f_le))
  -- the weight of the combined evidence dominates both confidences
  have cle : ∀ c w : ℚ, 0 ≤ c → c < 1 → weight c ≤ w → 0 ≤ w → c ≤ w / (w + 1) := by
    intro c w hc hc1 hcw hw0
    rw [le_div_iff₀ (by linarith)]
    unfold weight at hcw
    rw [div_le_iff₀ (by linarith)] at hcw
    linarith
  have hc1 := cle v1.confidence _ h1.c_nonneg h1' (show weight v1.confidence ≤ weight v1.confidence + weight v2.confidence by linarith) hw.le
  have hc2 := cle v2.confidence _ h2.c_nonneg h2' (show weight v2.confidence ≤ weight v1.confidence + weight v2.confidence by linarith) hw.le
  rw [max_assoc, max_eq_left (max_le hc1 hc2), hf1] at e
  refine ⟨_, e, ?_, rfl, ?_, hmm.1, hmm.2, ?_, min_le_left _ _⟩
  · rw [e', add_comm (posWeight v2), add_comm (weight v2.confidence), max_assoc, max_eq_left (max_le hc2 hc1), hf1]
  · intro hlt
    have : min (99 / 100) ((weight v1.confidence + weight v2.confidence) / (weight v1.confidence + weight v2.confidence + 1)) =
        (weight v1.confidence + weight v2.confidence) / (weight v1.confidence + weight v2.confidence + 1) := by
      rcases min_choice (99 / 100) ((weight v1.confidence + weight v2.confidence) / (weight v1.confidence + weight v2.confidence + 1)) with h | h
      · rw [h] at hlt; exact absurd hlt (lt_irrefl _)
      · exact h
    rw [this]
    generalize weight v1.confidence + weight v2.confidence = w at *
    unfold weight
    field_simp
    ring
  · exact min_le_min_left _ (max_le hc1 hc2)

/-! ### Concrete cases -/

example : (⟨1, 9 / 10⟩ : Truth).Valid := ⟨rfl, rfl, by norm_num, by norm_num, by norm_num, by norm_num⟩

example : Truth_Revision ⟨1, 9 / 10⟩ ⟨0, 1 / 2⟩ = .ok ⟨9 / 10, 10 / 11⟩ := by decide +kernel

example : Truth_Comparison ⟨1 / 2, 1 / 2⟩ ⟨1 / 2, 1⟩ = .ok ⟨1 / 3, 3 / 11⟩ := by decide +kernel

end
end ONA
