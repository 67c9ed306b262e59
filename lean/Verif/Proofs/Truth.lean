import Verif.Spec.Truth
import Mathlib.Tactic.Linarith
import Mathlib.Tactic.FieldSimp
import Mathlib.Tactic.Ring
import Mathlib.Tactic.Positivity
/-
Order lemmas about rounded arithmetic.
-/
namespace ONA
variable [Arith]

theorem isRepr_rnd (x : ℚ) : IsRepr (rnd x) := rnd_idem x
theorem rnd_zero : rnd (0 : ℚ) = 0 := by simpa using rnd_nat 0 (by norm_num)
theorem rnd_one : rnd (1 : ℚ) = 1 := by simpa using rnd_nat 1 (by norm_num)
theorem isRepr_zero : IsRepr 0 := rnd_zero
theorem isRepr_one : IsRepr 1 := rnd_one
theorem isRepr_half : IsRepr (1 / 2) := rnd_half
theorem rnd_le {x y : ℚ} (hy : IsRepr y) (h : x ≤ y) : rnd x ≤ y := by
  have := rnd_mono h; rwa [hy] at this
theorem le_rnd {x y : ℚ} (hx : IsRepr x) (h : x ≤ y) : x ≤ rnd y := by
  have := rnd_mono h; rwa [hx] at this
theorem rnd_nonneg {x : ℚ} (h : 0 ≤ x) : 0 ≤ rnd x := le_rnd isRepr_zero h
theorem rnd_le_one {x : ℚ} (h : x ≤ 1) : rnd x ≤ 1 := rnd_le isRepr_one h

/-- Literals are rounded closely. -/
theorem rnd_lit {x : ℚ} (h1 : 1 / 10 ^ 200 ≤ x) : x * (1 - 1 / 10 ^ 15) ≤ rnd x ∧ rnd x ≤ x * (1 + 1 / 10 ^ 15) := by
  have h0 : 0 ≤ x := le_trans (by positivity) h1
  have := rnd_rel x (by rwa [abs_of_nonneg h0])
  rw [abs_of_nonneg h0, abs_le] at this
  constructor <;> linarith [this.1, this.2]

theorem RELIANCE_range : 89 / 100 ≤ RELIANCE ∧ RELIANCE ≤ 91 / 100 := by
  unfold RELIANCE
  obtain ⟨h1, h2⟩ := rnd_lit (x := 9 / 10) (by norm_num)
  constructor
  · refine le_trans ?_ h1; norm_num
  · refine le_trans h2 ?_; norm_num
theorem MAX_CONFIDENCE_range : 98 / 100 ≤ MAX_CONFIDENCE ∧ MAX_CONFIDENCE ≤ 995 / 1000 := by
  unfold MAX_CONFIDENCE
  obtain ⟨h1, h2⟩ := rnd_lit (x := 99 / 100) (by norm_num)
  constructor
  · refine le_trans ?_ h1; norm_num
  · refine le_trans h2 ?_; norm_num
theorem MIN_CONFIDENCE_range : 9 / 1000 ≤ MIN_CONFIDENCE ∧ MIN_CONFIDENCE ≤ 11 / 1000 := by
  unfold MIN_CONFIDENCE
  obtain ⟨h1, h2⟩ := rnd_lit (x := 1 / 100) (by norm_num)
  constructor
  · refine le_trans ?_ h1; norm_num
  · refine le_trans h2 ?_; norm_num
theorem DECAY_range : 79 / 100 ≤ TRUTH_PROJECTION_DECAY ∧ TRUTH_PROJECTION_DECAY ≤ 81 / 100 := by
  unfold TRUTH_PROJECTION_DECAY
  obtain ⟨h1, h2⟩ := rnd_lit (x := 8 / 10) (by norm_num)
  constructor
  · refine le_trans ?_ h1; norm_num
  · refine le_trans h2 ?_; norm_num

/-- A double in the unit interval. -/
structure Unit01 (x : ℚ) : Prop where
  repr : IsRepr x
  nonneg : 0 ≤ x
  le_one : x ≤ 1

theorem Truth.Valid.f {t : Truth} (h : t.Valid) : Unit01 t.frequency := ⟨h.f_repr, h.f_nonneg, h.f_le⟩
theorem Truth.Valid.c {t : Truth} (h : t.Valid) : Unit01 t.confidence := ⟨h.c_repr, h.c_nonneg, h.c_le⟩
theorem Truth.Valid.mk' {f c : ℚ} (hf : Unit01 f) (hc : Unit01 c) : (Truth.mk f c).Valid :=
  ⟨hf.repr, hc.repr, hf.nonneg, hf.le_one, hc.nonneg, hc.le_one⟩

theorem unit01_one : Unit01 1 := ⟨isRepr_one, by norm_num, le_refl _⟩
theorem unit01_zero : Unit01 0 := ⟨isRepr_zero, le_refl _, by norm_num⟩
theorem unit01_RELIANCE : Unit01 RELIANCE :=
  ⟨isRepr_rnd _, le_trans (by norm_num) RELIANCE_range.1, le_trans RELIANCE_range.2 (by norm_num)⟩
theorem STRUCTURAL_TRUTH_valid : STRUCTURAL_TRUTH.Valid := Truth.Valid.mk' unit01_one unit01_RELIANCE

theorem fmul_unit {a b : ℚ} (ha : Unit01 a) (hb : Unit01 b) : Unit01 (fmul a b) := by
  refine ⟨isRepr_rnd _, rnd_nonneg (mul_nonneg ha.nonneg hb.nonneg), rnd_le_one ?_⟩
  exact mul_le_one₀ ha.le_one hb.nonneg hb.le_one
theorem fmul_le_left {a b : ℚ} (ha : Unit01 a) (hb : Unit01 b) : fmul a b ≤ a :=
  rnd_le ha.repr (mul_le_of_le_one_right ha.nonneg hb.le_one)
theorem fmul_le_right {a b : ℚ} (ha : Unit01 a) (hb : Unit01 b) : fmul a b ≤ b :=
  rnd_le hb.repr (mul_le_of_le_one_left hb.nonneg ha.le_one)
theorem fsub_unit {a : ℚ} (ha : Unit01 a) : Unit01 (fsub 1 a) := by
  refine ⟨isRepr_rnd _, rnd_nonneg ?_, rnd_le_one ?_⟩
  · linarith [ha.le_one]
  · linarith [ha.nonneg]
theorem Truth_or_unit {a b : ℚ} (ha : Unit01 a) (hb : Unit01 b) : Unit01 (Truth_or a b) :=
  fsub_unit (fmul_unit (fsub_unit ha) (fsub_unit hb))

theorem Truth_or_comm (a b : ℚ) : Truth_or a b = Truth_or b a := by
  unfold Truth_or fmul; rw [mul_comm]

/-- Unless the disjunction is rounded to zero, it is at least the (rounded) conjunction. -/
theorem fmul_le_or {a b : ℚ} (ha : Unit01 a) (hb : Unit01 b) (h0 : Truth_or a b ≠ 0) : fmul a b ≤ Truth_or a b := by
  wlog hab : b ≤ a generalizing a b
  · have := this hb ha (by rwa [Truth_or_comm]) (le_of_not_ge hab)
    rw [Truth_or_comm b a] at this
    unfold fmul at this ⊢
    rwa [mul_comm]
  have hp : fmul (fsub 1 a) (fsub 1 b) ≤ fsub 1 a := fmul_le_left (fsub_unit ha) (fsub_unit hb)
  suffices h : fsub 1 a ≤ 1 - a * b by
    unfold Truth_or
    exact rnd_mono (by linarith)
  have hnn := mul_nonneg ha.nonneg hb.nonneg
  by_cases hh : 1 / 2 ≤ a
  · have := rnd_one_sub_exact ha.repr hh ha.le_one
    unfold fsub
    rw [this]
    have := mul_le_of_le_one_right ha.nonneg hb.le_one
    linarith
  · have hb2 : b ≤ 1 / 2 := by linarith
    rcases rnd_one_sub ha.repr ha.nonneg ha.le_one with h1 | h1
    · exfalso
      apply h0
      have h2 : fsub 1 b = 1 := by
        refine le_antisymm (fsub_unit hb).le_one ?_
        rw [← h1]
        exact rnd_mono (by linarith)
      have h3 : fsub 1 a = 1 := h1
      unfold Truth_or
      rw [h2, h3]
      simp [fmul, fsub, rnd_one, rnd_zero]
    · have : a * b ≤ a / 2 := by
        have := mul_le_mul_of_nonneg_left hb2 ha.nonneg
        linarith
      exact le_trans h1 (by linarith)

/-- `w2c` on non-negative weights. -/
theorem w2c_spec {w : ℚ} (hr : IsRepr w) (hw : 0 ≤ w) :
    ∃ c, Truth_w2c w = .ok c ∧ Unit01 c ∧ c ≤ w := by
  have hd : 1 ≤ fadd w TRUTH_EVIDENTIAL_HORIZON := by
    unfold fadd TRUTH_EVIDENTIAL_HORIZON
    exact le_rnd isRepr_one (by linarith)
  have hd2 : w ≤ fadd w TRUTH_EVIDENTIAL_HORIZON := by
    unfold fadd TRUTH_EVIDENTIAL_HORIZON
    exact le_rnd hr (by linarith)
  unfold Truth_w2c fdiv
  rw [if_neg (by linarith)]
  have hpos : 0 < fadd w TRUTH_EVIDENTIAL_HORIZON := by linarith
  refine ⟨_, rfl, ⟨isRepr_rnd _, rnd_nonneg (div_nonneg hw hpos.le), rnd_le_one ?_⟩, rnd_le hr ?_⟩
  · rw [div_le_one hpos]; exact hd2
  · exact div_le_self hw hd

theorem w2c_unit {w : ℚ} (h : Unit01 w) : ∃ c, Truth_w2c w = .ok c ∧ Unit01 c ∧ c ≤ w :=
  w2c_spec h.repr h.nonneg

/-! ### The two-premise functions -/

theorem Truth_Deduction_valid {v1 v2 : Truth} (h1 : v1.Valid) (h2 : v2.Valid) :
    (Truth_Deduction v1 v2).Valid ∧ (Truth_Deduction v1 v2).confidence ≤ v1.confidence ∧
      (Truth_Deduction v1 v2).confidence ≤ v2.confidence := by
  have hf := fmul_unit h1.f h2.f
  have hc := fmul_unit h1.c h2.c
  refine ⟨Truth.Valid.mk' hf (fmul_unit hc hf), ?_, ?_⟩
  · exact le_trans (fmul_le_left hc hf) (fmul_le_left h1.c h2.c)
  · exact le_trans (fmul_le_left hc hf) (fmul_le_right h1.c h2.c)

theorem Truth_Negation_valid {v1 : Truth} (v2 : Truth) (h1 : v1.Valid) : (Truth_Negation v1 v2).Valid :=
  Truth.Valid.mk' (fsub_unit h1.f) h1.c

theorem Truth_Intersection_valid {v1 v2 : Truth} (h1 : v1.Valid) (h2 : v2.Valid) :
    (Truth_Intersection v1 v2).Valid ∧ (Truth_Intersection v1 v2).confidence ≤ v1.confidence :=
  ⟨Truth.Valid.mk' (fmul_unit h1.f h2.f) (fmul_unit h1.c h2.c), fmul_le_left h1.c h2.c⟩

theorem Truth_Analogy_valid {v1 v2 : Truth} (h1 : v1.Valid) (h2 : v2.Valid) :
    (Truth_Analogy v1 v2).Valid ∧ (Truth_Analogy v1 v2).confidence ≤ v1.confidence := by
  have hc := fmul_unit h1.c h2.c
  exact ⟨Truth.Valid.mk' (fmul_unit h1.f h2.f) (fmul_unit hc h2.f),
    le_trans (fmul_le_left hc h2.f) (fmul_le_left h1.c h2.c)⟩

theorem Truth_Abduction_valid {v1 v2 : Truth} (h1 : v1.Valid) (h2 : v2.Valid) :
    ∃ t, Truth_Abduction v1 v2 = .ok t ∧ t.Valid ∧ t.confidence ≤ v1.confidence ∧ t.confidence ≤ v2.confidence := by
  have hfc := fmul_unit h1.f h1.c
  have hw := fmul_unit hfc h2.c
  obtain ⟨c, e, hc, hle⟩ := w2c_unit hw
  unfold Truth_Abduction
  rw [e]
  refine ⟨_, rfl, Truth.Valid.mk' h2.f hc, ?_, ?_⟩
  · exact le_trans hle (le_trans (fmul_le_left hfc h2.c) (fmul_le_right h1.f h1.c))
  · exact le_trans hle (fmul_le_right hfc h2.c)

theorem decompose_conf {fn c1 c2 : ℚ} (hf : Unit01 fn) (h1 : Unit01 c1) (h2 : Unit01 c2) :
    Unit01 (fmul (fmul fn c1) c2) ∧ fmul (fmul fn c1) c2 ≤ c1 :=
  ⟨fmul_unit (fmul_unit hf h1) h2, le_trans (fmul_le_left (fmul_unit hf h1) h2) (fmul_le_right hf h1)⟩

theorem Truth_DecomposeNPP_valid {v1 v2 : Truth} (h1 : v1.Valid) (h2 : v2.Valid) :
    (Truth_DecomposeNPP v1 v2).Valid ∧ (Truth_DecomposeNPP v1 v2).confidence ≤ v1.confidence := by
  have hf := fmul_unit (fsub_unit h1.f) h2.f
  obtain ⟨a, b⟩ := decompose_conf hf h1.c h2.c
  exact ⟨Truth.Valid.mk' hf a, b⟩

end ONA
