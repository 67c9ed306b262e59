import Verif.Model.Arith
import Mathlib.Data.Int.Log
import Mathlib.Algebra.Order.Round
import Mathlib.Analysis.SpecialFunctions.Log.Base
/-
IEEE 754 binary64 arithmetic, round to nearest, ties to even, without overflow: an instance of the arithmetic the model is
parametrised over.
-/
namespace ONA
namespace Binary64

section
variable {K : Type} [Field K] [LinearOrder K] [IsStrictOrderedRing K] [FloorRing K]

/-- The nearest integer, ties to even. -/
def nearest (y : K) : ℤ :=
  if Int.fract y < 1 / 2 then ⌊y⌋
  else if 1 / 2 < Int.fract y then ⌊y⌋ + 1
  else if Even ⌊y⌋ then ⌊y⌋ else ⌊y⌋ + 1

/-- The exponent of the last place of doubles close to `x`: 53 bits of precision, and at least -1074. -/
def lastPlace (x : K) : ℤ := max (Int.log 2 |x| - 52) (-1074)

/-- Rounding to a double. -/
def round (x : K) : ℚ := (nearest (x / 2 ^ lastPlace x) : ℚ) * 2 ^ lastPlace x

theorem nearest_cases (y : K) : nearest y = ⌊y⌋ ∧ Int.fract y ≤ 1 / 2 ∨ nearest y = ⌊y⌋ + 1 ∧ 1 / 2 ≤ Int.fract y := by
  unfold nearest
  split_ifs with h1 h2 h3
  · exact .inl ⟨rfl, h1.le⟩
  · exact .inr ⟨rfl, h2.le⟩
  · exact .inl ⟨rfl, not_lt.1 h2⟩
  · exact .inr ⟨rfl, not_lt.1 h1⟩

theorem nearest_int (m : ℤ) : nearest (m : K) = m := by
  unfold nearest
  rw [Int.fract_intCast, if_pos (by norm_num), Int.floor_intCast]

theorem nearest_err (y : K) : |(nearest y : K) - y| ≤ 1 / 2 := by
  have hf := Int.self_sub_floor y
  have h0 := Int.fract_nonneg y
  have h1 := Int.fract_lt_one y
  rw [abs_le]
  rcases nearest_cases y with ⟨h, h'⟩ | ⟨h, h'⟩
  · rw [h]; constructor <;> linarith
  · rw [h]; push_cast; constructor <;> linarith

theorem nearest_mono {x y : K} (h : x ≤ y) : nearest x ≤ nearest y := by
  have hfx := Int.self_sub_floor x
  have hfy := Int.self_sub_floor y
  have hfl := Int.floor_mono h
  rcases hfl.lt_or_eq with hlt | heq
  · have h1 : nearest x ≤ ⌊x⌋ + 1 := by rcases nearest_cases x with ⟨h, -⟩ | ⟨h, -⟩ <;> omega
    have h2 : ⌊y⌋ ≤ nearest y := by rcases nearest_cases y with ⟨h, -⟩ | ⟨h, -⟩ <;> omega
    omega
  · have hfr : Int.fract x ≤ Int.fract y := by
      rw [← hfx, ← hfy, heq]; linarith
    unfold nearest
    rw [heq]
    split_ifs with a1 a2 a3 a4 a5 a6 a7 a8 a9 <;> first | omega | (exfalso; linarith) | skip
    all_goals exfalso; simp_all

theorem nearest_neg (y : K) : nearest (-y) = -nearest y := by
  by_cases h0 : Int.fract y = 0
  · obtain ⟨m, rfl⟩ : ∃ m : ℤ, y = m := ⟨⌊y⌋, by have := Int.self_sub_floor y; rw [h0] at this; linarith⟩
    rw [← Int.cast_neg, nearest_int, nearest_int]
  · have hfr := Int.fract_neg h0
    have hfl : ⌊-y⌋ = -⌊y⌋ - 1 := by
      have h1 := Int.self_sub_floor y
      have h2 := Int.self_sub_floor (-y)
      have : ((⌊-y⌋ : ℤ) : K) = ((-⌊y⌋ - 1 : ℤ) : K) := by push_cast; linarith
      exact_mod_cast this
    unfold nearest
    rw [hfr, hfl]
    have hpar : Even (-⌊y⌋ - 1) ↔ ¬ Even ⌊y⌋ := by
      rw [Int.even_sub_one, even_neg]
    simp only [hpar]
    split_ifs with a1 a2 a3 a4 a5 a6 a7 a8 a9 <;> first | omega | (exfalso; linarith) | skip

/-- No integer is closer. -/
theorem nearest_best (y : K) (k : ℤ) : |(nearest y : K) - y| ≤ |(k : K) - y| := by
  have hf := Int.self_sub_floor y
  have h0 := Int.fract_nonneg y
  have h1 := Int.fract_lt_one y
  rcases nearest_cases y with ⟨h, h'⟩ | ⟨h, h'⟩
  · rw [h, abs_of_nonpos (by linarith)]
    rcases le_or_gt k ⌊y⌋ with hk | hk
    · have : (k : K) ≤ ⌊y⌋ := by exact_mod_cast hk
      rw [abs_of_nonpos (by linarith)]; linarith
    · have : ((⌊y⌋ + 1 : ℤ) : K) ≤ k := by exact_mod_cast hk
      push_cast at this
      rw [abs_of_nonneg (by linarith)]; linarith
  · rw [h, abs_of_nonneg (by push_cast; linarith)]
    push_cast
    rcases le_or_gt k ⌊y⌋ with hk | hk
    · have : (k : K) ≤ ⌊y⌋ := by exact_mod_cast hk
      rw [abs_of_nonpos (by linarith)]; linarith
    · have : ((⌊y⌋ + 1 : ℤ) : K) ≤ k := by exact_mod_cast hk
      push_cast at this
      rw [abs_of_nonneg (by linarith)]; linarith

theorem two_zpow_pos (k : ℤ) : (0 : K) < 2 ^ k := zpow_pos (by norm_num) k

theorem two_zpow_le {k l : ℤ} : (2 : K) ^ k ≤ 2 ^ l ↔ k ≤ l := zpow_le_zpow_iff_right₀ (by norm_num)

theorem two_zpow_lt {k l : ℤ} : (2 : K) ^ k < 2 ^ l ↔ k < l := zpow_lt_zpow_iff_right₀ (by norm_num)

theorem log_le {x : K} (h : x ≠ 0) : (2 : K) ^ Int.log 2 |x| ≤ |x| := by
  have := Int.zpow_log_le_self (b := 2) (r := |x|) (by norm_num) (abs_pos.2 h)
  simpa using this

theorem lt_log {x : K} : |x| < (2 : K) ^ (Int.log 2 |x| + 1) := by
  have := Int.lt_zpow_succ_log_self (b := 2) (by norm_num) |x|
  simpa using this

theorem lastPlace_neg (x : K) : lastPlace (-x) = lastPlace x := by unfold lastPlace; rw [abs_neg]

theorem round_neg (x : K) : round (-x) = -round x := by
  unfold round
  rw [lastPlace_neg, neg_div, nearest_neg]
  push_cast
  ring

theorem round_zero : round (0 : K) = 0 := by
  unfold round
  rw [zero_div, show (0 : K) = ((0 : ℤ) : K) by simp, nearest_int]
  simp

theorem round_nonneg {x : K} (h : 0 ≤ x) : 0 ≤ round x := by
  unfold round
  refine mul_nonneg ?_ (two_zpow_pos _).le
  have := nearest_mono (div_nonneg h (two_zpow_pos (K := K) (lastPlace x)).le)
  rw [show (0 : K) = ((0 : ℤ) : K) by simp, nearest_int] at this
  exact_mod_cast this

end

/-- The doubles: integers of at most 53 bits, scaled by a power of two which is at least 2^-1074. -/
def IsDouble (q : ℚ) : Prop := ∃ m e : ℤ, |m| ≤ 2 ^ 53 ∧ -1074 ≤ e ∧ q = m * 2 ^ e

section
variable {K : Type} [Field K] [LinearOrder K] [IsStrictOrderedRing K] [FloorRing K]

theorem round_isDouble (x : K) : IsDouble (round x) := by
  refine ⟨nearest (x / 2 ^ lastPlace x), lastPlace x, ?_, le_max_right _ _, rfl⟩
  have hb : |x / 2 ^ lastPlace x| ≤ ((2 ^ 53 : ℤ) : K) := by
    rw [abs_div, abs_of_pos (two_zpow_pos (K := K) _), div_le_iff₀ (two_zpow_pos _)]
    refine (lt_log (x := x)).le.trans ?_
    have : ((2 ^ 53 : ℤ) : K) = 2 ^ (53 : ℤ) := by norm_num
    rw [this, ← zpow_add₀ (by norm_num : (2 : K) ≠ 0), two_zpow_le]
    have := le_max_left (Int.log 2 |x| - 52) (-1074)
    unfold lastPlace
    omega
  rw [abs_le] at hb ⊢
  constructor
  · have := nearest_mono hb.1
    rw [← Int.cast_neg, nearest_int] at this
    exact this
  · have := nearest_mono hb.2
    rw [nearest_int] at this
    exact this

/-- Doubles are not changed. -/
theorem round_double {m e : ℤ} (hm : |m| ≤ 2 ^ 53) (he : -1074 ≤ e) : round ((m : K) * 2 ^ e) = m * 2 ^ e := by
  by_cases h0 : m = 0
  · subst h0
    simp [round_zero]
  have hz : (m : K) * 2 ^ e ≠ 0 := mul_ne_zero (by exact_mod_cast h0) (two_zpow_pos e).ne'
  have exact : ∀ k : ℤ, (m : K) * 2 ^ e = k * 2 ^ lastPlace ((m : K) * 2 ^ e) →
      (m : ℚ) * 2 ^ e = k * 2 ^ lastPlace ((m : K) * 2 ^ e) → round ((m : K) * 2 ^ e) = m * 2 ^ e := by
    intro k hk hk'
    unfold round
    have : (m : K) * 2 ^ e / 2 ^ lastPlace ((m : K) * 2 ^ e) = (k : K) := by
      rw [div_eq_iff (two_zpow_pos _).ne']
      exact hk
    rw [this, nearest_int, ← hk']
  rcases le_or_gt (lastPlace ((m : K) * 2 ^ e)) e with hle | hgt
  · obtain ⟨j, hj⟩ := Int.eq_ofNat_of_zero_le (sub_nonneg.2 hle)
    have hej : e = j + lastPlace ((m : K) * 2 ^ e) := by omega
    generalize hl : lastPlace ((m : K) * 2 ^ e) = l at *
    refine exact (m * 2 ^ j) ?_ ?_
    · rw [hej, zpow_add₀ (by norm_num : (2 : K) ≠ 0)]; push_cast; rw [zpow_natCast]; ring
    · rw [hej, zpow_add₀ (by norm_num : (2 : ℚ) ≠ 0)]; push_cast; rw [zpow_natCast]; ring
  · have hl : lastPlace ((m : K) * 2 ^ e) = Int.log 2 |(m : K) * 2 ^ e| - 52 := by
      unfold lastPlace at hgt ⊢
      omega
    have h1 := log_le hz
    rw [show Int.log 2 |(m : K) * 2 ^ e| = lastPlace ((m : K) * 2 ^ e) + 52 by omega] at h1
    have habs : |(m : K) * 2 ^ e| = ((|m| : ℤ) : K) * 2 ^ e := by
      rw [abs_mul, abs_of_pos (two_zpow_pos (K := K) e), Int.cast_abs]
    rw [habs] at h1
    have h2 : ((|m| : ℤ) : K) ≤ 2 ^ (53 : ℤ) := by
      have : ((|m| : ℤ) : K) ≤ ((2 ^ 53 : ℤ) : K) := by exact_mod_cast hm
      refine this.trans ?_
      norm_num
    have h3 : (2 : K) ^ (lastPlace ((m : K) * 2 ^ e) + 52) ≤ 2 ^ (53 + e) := by
      refine h1.trans ?_
      rw [zpow_add₀ (by norm_num : (2 : K) ≠ 0)]
      exact mul_le_mul_of_nonneg_right h2 (two_zpow_pos e).le
    rw [two_zpow_le] at h3
    have hl' : lastPlace ((m : K) * 2 ^ e) = e + 1 := by omega
    have h4 : (2 ^ 53 : ℤ) ≤ |m| := by
      rw [hl', show e + 1 + 52 = 53 + e by ring, zpow_add₀ (by norm_num : (2 : K) ≠ 0)] at h1
      have h5 := le_of_mul_le_mul_right h1 (two_zpow_pos e)
      have h6 : ((2 ^ 53 : ℤ) : K) ≤ ((|m| : ℤ) : K) := by
        refine le_trans ?_ h5
        norm_num
      exact_mod_cast h6
    have h5 : |m| = 2 ^ 53 := le_antisymm hm h4
    have h6 : m = 2 * (m / 2) := by
      rcases abs_cases m with ⟨h, -⟩ | ⟨h, -⟩ <;> omega
    refine exact (m / 2) ?_ ?_
    · rw [hl', zpow_add₀ (by norm_num : (2 : K) ≠ 0)]
      conv_lhs => rw [h6]
      push_cast
      ring
    · rw [hl', zpow_add₀ (by norm_num : (2 : ℚ) ≠ 0)]
      conv_lhs => rw [h6]
      push_cast
      ring

theorem cast_round (x : K) : ((round x : ℚ) : K) = (nearest (x / 2 ^ lastPlace x) : K) * 2 ^ lastPlace x := by
  unfold round
  push_cast
  rfl

theorem round_sub (x : K) (k : ℤ) : |((round x : ℚ) : K) - x| ≤ |(k : K) * 2 ^ lastPlace x - x| := by
  have hp := two_zpow_pos (K := K) (lastPlace x)
  have h := mul_le_mul_of_nonneg_right (nearest_best (x / 2 ^ lastPlace x) k) hp.le
  rw [← abs_of_pos hp, ← abs_mul, ← abs_mul, abs_of_pos hp, sub_mul, sub_mul, div_mul_cancel₀ _ hp.ne'] at h
  rw [cast_round]
  exact h

theorem round_err (x : K) : |((round x : ℚ) : K) - x| ≤ 2 ^ lastPlace x / 2 := by
  have hp := two_zpow_pos (K := K) (lastPlace x)
  have h := mul_le_mul_of_nonneg_right (nearest_err (x / 2 ^ lastPlace x)) hp.le
  have h2 : |(nearest (x / 2 ^ lastPlace x) : K) * 2 ^ lastPlace x - x| =
      |(nearest (x / 2 ^ lastPlace x) : K) - x / 2 ^ lastPlace x| * 2 ^ lastPlace x := by
    conv_rhs => rw [← abs_of_pos hp, ← abs_mul, abs_of_pos hp, sub_mul, div_mul_cancel₀ _ hp.ne']
  rw [cast_round, h2]
  linarith

/-- The result is a closest double. -/
theorem round_best (x : K) {f : ℚ} (hf : IsDouble f) : |((round x : ℚ) : K) - x| ≤ |(f : K) - x| := by
  obtain ⟨m, e, hm, he, rfl⟩ := hf
  rcases le_or_gt (lastPlace x) e with hle | hgt
  · obtain ⟨j, hj⟩ := Int.eq_ofNat_of_zero_le (sub_nonneg.2 hle)
    have hej : e = j + lastPlace x := by omega
    have := round_sub x (m * 2 ^ j)
    refine this.trans_eq ?_
    congr 2
    push_cast
    rw [hej, zpow_add₀ (by norm_num : (2 : K) ≠ 0), zpow_natCast]
    ring
  · have hl : lastPlace x = Int.log 2 |x| - 52 := by
      unfold lastPlace at hgt ⊢
      omega
    by_cases hx : x = 0
    · subst hx
      rw [round_zero]
      simpa using mul_nonneg (abs_nonneg (m : K)) (two_zpow_pos e).le
    have h1 := log_le hx
    have hfm : |((m * 2 ^ e : ℚ) : K)| ≤ 2 ^ Int.log 2 |x| := by
      push_cast
      rw [abs_mul, abs_of_pos (two_zpow_pos (K := K) e)]
      have h2 : |(m : K)| ≤ 2 ^ (53 : ℤ) := by
        rw [← Int.cast_abs]
        have : ((|m| : ℤ) : K) ≤ ((2 ^ 53 : ℤ) : K) := by exact_mod_cast hm
        refine this.trans ?_
        norm_num
      refine (mul_le_mul_of_nonneg_right h2 (two_zpow_pos e).le).trans ?_
      rw [← zpow_add₀ (by norm_num : (2 : K) ≠ 0), two_zpow_le]
      omega
    have hpow : (2 : K) ^ Int.log 2 |x| = ((2 ^ 52 : ℤ) : K) * 2 ^ lastPlace x := by
      have h52 : ((2 ^ 52 : ℤ) : K) = 2 ^ (52 : ℤ) := by norm_num
      rw [h52, ← zpow_add₀ (by norm_num : (2 : K) ≠ 0)]
      congr 1
      omega
    obtain ⟨hf1, hf2⟩ := abs_le.1 hfm
    rcases lt_or_gt_of_ne hx with hneg | hpos
    · have h3 := round_sub x (-2 ^ 52)
      rw [Int.cast_neg, neg_mul, ← hpow] at h3
      rw [abs_of_neg hneg] at h1
      refine h3.trans ?_
      rw [abs_of_neg hneg] at hf1
      have ha : 0 ≤ -(2 : K) ^ Int.log 2 |x| - x := by rw [abs_of_neg hneg]; linarith
      rw [abs_of_nonneg ha, abs_of_neg hneg]
      refine le_trans ?_ (le_abs_self _)
      linarith
    · have h3 := round_sub x (2 ^ 52)
      rw [← hpow] at h3
      refine h3.trans ?_
      rw [abs_of_pos hpos] at h1 hf2 ⊢
      rw [abs_of_nonpos (by linarith)]
      refine le_trans ?_ (neg_le_abs _)
      linarith

theorem round_mono {x y : K} (h : x ≤ y) : round x ≤ round y := by
  rcases h.lt_or_eq with h | rfl
  · by_contra hc
    have hc' : ((round y : ℚ) : K) < ((round x : ℚ) : K) := by exact_mod_cast not_le.1 hc
    have h1 := round_best x (round_isDouble y)
    have h2 := round_best y (round_isDouble x)
    rcases abs_cases (((round x : ℚ) : K) - x) with ⟨a, a'⟩ | ⟨a, a'⟩ <;>
    rcases abs_cases (((round y : ℚ) : K) - x) with ⟨b, b'⟩ | ⟨b, b'⟩ <;>
    rcases abs_cases (((round y : ℚ) : K) - y) with ⟨c, c'⟩ | ⟨c, c'⟩ <;>
    rcases abs_cases (((round x : ℚ) : K) - y) with ⟨d, d'⟩ | ⟨d, d'⟩ <;>
    rw [a, b] at h1 <;> rw [c, d] at h2 <;> linarith
  · exact le_rfl

end

theorem round_of_isDouble {q : ℚ} (h : IsDouble q) : round q = q := by
  obtain ⟨m, e, hm, he, rfl⟩ := h
  exact round_double hm he

theorem isDouble_of_round {q : ℚ} (h : round q = q) : IsDouble q := h ▸ round_isDouble q

theorem round_idem (x : ℚ) : round (round x) = round x := round_of_isDouble (round_isDouble x)

theorem isDouble_nat {n : ℕ} (h : n ≤ 2 ^ 53) : IsDouble n :=
  ⟨n, 0, by rw [abs_of_nonneg (by positivity)]; exact_mod_cast h, by norm_num, by simp⟩

theorem isDouble_half : IsDouble (1 / 2) := ⟨1, -1, by norm_num, by norm_num, by norm_num⟩

theorem isDouble_one : IsDouble 1 := by simpa using isDouble_nat (n := 1) (by norm_num)

theorem isDouble_neg {q : ℚ} (h : IsDouble q) : IsDouble (-q) := by
  obtain ⟨m, e, hm, he, rfl⟩ := h
  exact ⟨-m, e, by rwa [abs_neg], he, by push_cast; ring⟩

set_option exponentiation.threshold 2000 in
theorem round_rel (x : ℚ) (h : 1 / 10 ^ 200 ≤ |x|) : |round x - x| ≤ |x| / 10 ^ 15 := by
  have hx : x ≠ 0 := by
    rintro rfl
    norm_num at h
  have h1 := round_err x
  have h2 := log_le hx
  have h3 : (2 : ℚ) ^ (-1022 : ℤ) < 2 ^ (Int.log 2 |x| + 1) := by
    refine lt_of_lt_of_le ?_ (h.trans lt_log.le)
    norm_num
  rw [two_zpow_lt] at h3
  have hl : lastPlace x = Int.log 2 |x| - 52 := by
    unfold lastPlace
    omega
  rw [hl, zpow_sub₀ (by norm_num : (2 : ℚ) ≠ 0)] at h1
  have h4 : ((2 : ℚ) ^ (52 : ℤ)) = 4503599627370496 := by norm_num
  rw [h4] at h1
  simp only [Rat.cast_id] at h1
  refine h1.trans ?_
  rw [div_div, div_le_div_iff₀ (by norm_num) (by norm_num)]
  nlinarith [abs_nonneg x]

/-- A multiple of a power of two, with few enough bits. -/
theorem isDouble_of_multiple {q : ℚ} {k e : ℤ} (he : -1074 ≤ e) (h : q = k * 2 ^ e) (hb : |q| ≤ 2 ^ (53 + e)) : IsDouble q := by
  refine ⟨k, e, ?_, he, h⟩
  rw [h, abs_mul, abs_of_pos (two_zpow_pos (K := ℚ) e), zpow_add₀ (by norm_num : (2 : ℚ) ≠ 0)] at hb
  have h1 := le_of_mul_le_mul_right hb (two_zpow_pos e)
  rw [← Int.cast_abs] at h1
  have h2 : ((|k| : ℤ) : ℚ) ≤ ((2 ^ 53 : ℤ) : ℚ) := h1.trans (by norm_num)
  exact_mod_cast h2

/-- A double of at least 1/2 is a multiple of 2^-53. -/
theorem multiple {q : ℚ} (h : IsDouble q) (h2 : 1 / 2 ≤ q) : ∃ k : ℤ, q = k * 2 ^ (-53 : ℤ) := by
  have hq : q ≠ 0 := by rintro rfl; norm_num at h2
  have hr := round_of_isDouble h
  unfold round at hr
  have h3 : (2 : ℚ) ^ (-1 : ℤ) < 2 ^ (Int.log 2 |q| + 1) := by
    refine lt_of_le_of_lt ?_ lt_log
    rw [abs_of_pos (by linarith)]
    norm_num
    linarith
  rw [two_zpow_lt] at h3
  have hl : -53 ≤ lastPlace q := by
    unfold lastPlace
    omega
  obtain ⟨j, hj⟩ := Int.eq_ofNat_of_zero_le (sub_nonneg.2 hl)
  refine ⟨nearest (q / 2 ^ lastPlace q) * 2 ^ j, ?_⟩
  conv_lhs => rw [← hr]
  rw [show lastPlace q = j + -53 by omega, zpow_add₀ (by norm_num : (2 : ℚ) ≠ 0)]
  push_cast
  rw [zpow_natCast]
  ring

theorem round_one_sub_exact {x : ℚ} (h : round x = x) (h1 : 1 / 2 ≤ x) (h2 : x ≤ 1) : round (1 - x) = 1 - x := by
  obtain ⟨k, hk⟩ := multiple (isDouble_of_round h) h1
  refine round_of_isDouble (isDouble_of_multiple (k := 2 ^ 53 - k) (e := -53) (by norm_num) ?_ ?_)
  · rw [hk]
    push_cast
    rw [sub_mul]
    norm_num
  · rw [abs_of_nonneg (by linarith)]
    norm_num
    linarith

theorem log_interval {x : ℚ} {k : ℤ} (h1 : 2 ^ k ≤ x) (h2 : x < 2 ^ (k + 1)) : Int.log 2 |x| = k := by
  have hp : 0 < x := (two_zpow_pos k).trans_le h1
  have h3 := log_le hp.ne'
  have h4 := lt_log (x := x)
  rw [abs_of_pos hp] at h3 h4 ⊢
  have h5 := two_zpow_lt.1 (h3.trans_lt h2)
  have h6 := two_zpow_lt.1 (h1.trans_lt h4)
  omega

theorem round_one_sub {x : ℚ} (h0 : 0 ≤ x) (h1 : x ≤ 1) : round (1 - x) = 1 ∨ round (1 - x) ≤ 1 - x / 2 := by
  have hone : round (1 : ℚ) = 1 := round_of_isDouble isDouble_one
  rcases le_or_gt x (2 ^ (-54 : ℤ)) with hs | hs
  · left
    refine le_antisymm (hone ▸ round_mono (by linarith)) ?_
    have hm : round (1 - 2 ^ (-54 : ℤ) : ℚ) ≤ round (1 - x) := round_mono (by linarith)
    refine le_trans (le_of_eq ?_) hm
    have hl : lastPlace (1 - 2 ^ (-54 : ℤ) : ℚ) = -53 := by
      unfold lastPlace
      rw [log_interval (k := -1) (by norm_num) (by norm_num)]
      norm_num
    unfold round
    rw [hl]
    have hy : ((1 - 2 ^ (-54 : ℤ)) / 2 ^ (-53 : ℤ) : ℚ) = ((2 ^ 53 - 1 : ℤ) : ℚ) + 1 / 2 := by norm_num
    rw [hy]
    have hfl : ⌊((2 ^ 53 - 1 : ℤ) : ℚ) + 1 / 2⌋ = 2 ^ 53 - 1 := by
      rw [Int.floor_intCast_add]
      norm_num
    have hfr : Int.fract (((2 ^ 53 - 1 : ℤ) : ℚ) + 1 / 2) = 1 / 2 := by
      rw [← Int.self_sub_floor, hfl]
      ring
    unfold nearest
    rw [hfr, hfl, if_neg (lt_irrefl _), if_neg (lt_irrefl _), if_neg (by decide)]
    norm_num
  · right
    rcases le_or_gt (2 ^ (-53 : ℤ)) x with hb | hb
    · by_cases hx1 : 1 - x = 0
      · rw [hx1, round_zero]
        linarith
      have hlp : lastPlace (1 - x) ≤ -53 := by
        unfold lastPlace
        refine max_le ?_ (by norm_num)
        have h3 := log_le hx1
        rw [abs_of_nonneg (by linarith)] at h3
        have h4 : (2 : ℚ) ^ Int.log 2 (1 - x) < 2 ^ (0 : ℤ) := by
          refine h3.trans_lt ?_
          have := two_zpow_pos (K := ℚ) (-54)
          norm_num
          linarith
        rw [two_zpow_lt] at h4
        rw [abs_of_nonneg (by linarith)]
        omega
      have h3 := round_err (1 - x)
      simp only [Rat.cast_id] at h3
      have h4 : (2 : ℚ) ^ lastPlace (1 - x) ≤ 2 ^ (-53 : ℤ) := two_zpow_le.2 hlp
      have h5 := (abs_le.1 h3).2
      linarith
    · have hl : lastPlace (1 - x) = -53 := by
        unfold lastPlace
        rw [log_interval (k := -1) ?_ ?_]
        · norm_num
        · norm_num at hb ⊢
          linarith
        · norm_num at hs ⊢
          linarith
      have hfl : ⌊(1 - x) / 2 ^ (-53 : ℤ)⌋ = 2 ^ 53 - 1 := by
        rw [Int.floor_eq_iff]
        norm_num at hs hb ⊢
        constructor <;> linarith
      have hfr : Int.fract ((1 - x) / 2 ^ (-53 : ℤ)) < 1 / 2 := by
        rw [← Int.self_sub_floor, hfl]
        norm_num at hs hb ⊢
        linarith
      unfold round nearest
      rw [hl, if_pos hfr, hfl]
      norm_num at hb ⊢
      linarith

/-- Doubles are multiples of the smallest one. -/
theorem multiple_least {q : ℚ} (h : IsDouble q) : ∃ k : ℤ, q = k * 2 ^ (-1074 : ℤ) := by
  obtain ⟨m, e, -, he, rfl⟩ := h
  obtain ⟨j, hj⟩ := Int.eq_ofNat_of_zero_le (sub_nonneg.2 he)
  refine ⟨m * 2 ^ j, ?_⟩
  rw [show e = j + -1074 by omega, zpow_add₀ (by norm_num : (2 : ℚ) ≠ 0)]
  push_cast
  rw [zpow_natCast]
  ring

set_option exponentiation.threshold 2000 in
theorem round_least {q : ℚ} (h : 2 ^ (-1074 : ℤ) ≤ q) : 2 ^ (-1074 : ℤ) ≤ round q := by
  have h1 : round (2 ^ (-1074 : ℤ) : ℚ) = 2 ^ (-1074 : ℤ) :=
    round_of_isDouble ⟨1, -1074, by norm_num, le_refl _, by simp⟩
  rw [← h1]
  exact round_mono h

theorem round_sub_ne {x y : ℚ} (hx : round x = x) (hy : round y = y) (h : x ≠ y) : round (x - y) ≠ 0 := by
  obtain ⟨a, ha⟩ := multiple_least (isDouble_of_round hx)
  obtain ⟨b, hb⟩ := multiple_least (isDouble_of_round hy)
  have hp := two_zpow_pos (K := ℚ) (-1074)
  have key : ∀ {u v : ℤ}, u < v → round (((v : ℚ) * 2 ^ (-1074 : ℤ)) - u * 2 ^ (-1074 : ℤ)) ≠ 0 := by
    intro u v huv
    have h1 : (1 : ℚ) ≤ ((v - u : ℤ) : ℚ) := by exact_mod_cast (by omega : 1 ≤ v - u)
    have h2 : (2 : ℚ) ^ (-1074 : ℤ) ≤ (v : ℚ) * 2 ^ (-1074 : ℤ) - u * 2 ^ (-1074 : ℤ) := by
      rw [← sub_mul]
      push_cast at h1
      calc (2 : ℚ) ^ (-1074 : ℤ) = 1 * 2 ^ (-1074 : ℤ) := (one_mul _).symm
        _ ≤ _ := mul_le_mul_of_nonneg_right h1 hp.le
    have := round_least h2
    linarith
  rcases lt_trichotomy a b with hab | hab | hab
  · rw [← neg_sub, round_neg, neg_ne_zero, ha, hb]
    exact key hab
  · exact absurd (by rw [ha, hb, hab]) h
  · rw [ha, hb]
    exact key hab

end Binary64

open Binary64 in
/-- IEEE 754 binary64 arithmetic, round to nearest, ties to even, with an unbounded exponent above; `pow` and `log2` correctly rounded. -/
@[reducible] noncomputable def binary64 : Arith where
  rnd x := Binary64.round x
  rnd_mono h := round_mono h
  rnd_idem := round_idem
  rnd_neg := round_neg
  rnd_nat n h := round_of_isDouble (isDouble_nat h)
  rnd_half := round_of_isDouble isDouble_half
  rnd_rel := round_rel
  rnd_one_sub_exact := round_one_sub_exact
  rnd_one_sub _ := round_one_sub
  rnd_sub_ne := round_sub_ne
  pow b n := Binary64.round (b ^ n)
  pow_repr _ _ := round_idem _
  pow_zero b := by rw [pow_zero]; exact round_of_isDouble isDouble_one
  pow_nonneg n h := round_nonneg (pow_nonneg h n)
  pow_anti h0 h1 h := round_mono (pow_le_pow_of_le_one h0 h1 h)
  log2 x := Binary64.round (Real.logb 2 x)
  log2_repr _ := round_of_isDouble (round_isDouble _)
  log2_ge_one {x} h := by
    have h1 : Binary64.round (1 : ℝ) = 1 := by simpa using round_double (K := ℝ) (m := 1) (e := 0) (by norm_num) (by norm_num)
    rw [← h1]
    refine round_mono ?_
    rw [Real.le_logb_iff_rpow_le (by norm_num)]
    · rw [Real.rpow_one]; exact_mod_cast h
    · have : (2 : ℝ) ≤ (x : ℝ) := by exact_mod_cast h
      linarith
  log2_one := by
    rw [show ((1 : ℚ) : ℝ) = 1 by simp, Real.logb_one, Binary64.round_zero]

end ONA
