import Verif.Model.Usage
import Verif.Proofs.Truth
import Mathlib.Tactic.FieldSimp
import Mathlib.Tactic.Positivity
import Mathlib.Tactic.Ring
/-
C45. Usefulness.
-/
namespace ONA

section
variable [Arith]

theorem rnd_nonneg_of {x : ℚ} (h : 0 ≤ x) : 0 ≤ (rnd x : ℚ) := by
  have := rnd_mono h
  rwa [rnd_zero] at this

/-- **C45 (range).** Under every admissible rounding usefulness is defined and in `[0,1]`; it is below 1 as long
as the use count is below 10^14. -/
theorem C45_range (u : Usage) (now : Int) (h : 0 ≤ u.useCount) :
    ∃ x, Usage_usefulness u now = .ok x ∧ 0 ≤ x ∧ x ≤ 1 ∧ (u.useCount ≤ 10 ^ 14 → x < 1) := by
  unfold Usage_usefulness
  set r : ℚ := rnd ((max 0 (now - u.lastUsed) : Int) : ℚ) with hr
  have r0 : 0 ≤ r := rnd_nonneg_of (by exact_mod_cast le_max_left _ _)
  have d1 : (1 : ℚ) ≤ fadd r 1 := by
    have := rnd_mono (show (1 : ℚ) ≤ r + 1 by linarith)
    rwa [rnd_one] at this
  have c0 : (0 : ℚ) ≤ rnd (u.useCount : ℚ) := rnd_nonneg_of (by exact_mod_cast h)
  simp only [fdiv]
  rw [if_neg (by linarith)]
  simp only [R.ok_bind]
  set v : ℚ := rnd (rnd (u.useCount : ℚ) / fadd r 1) with hv
  have v0 : 0 ≤ v := rnd_nonneg_of (div_nonneg c0 (by linarith))
  have e1 : (1 : ℚ) ≤ fadd v 1 := by
    have := rnd_mono (show (1 : ℚ) ≤ v + 1 by linarith)
    rwa [rnd_one] at this
  have ev : v ≤ fadd v 1 := by
    have := rnd_mono (show v ≤ v + 1 by linarith)
    rwa [hv, rnd_idem] at this
  rw [if_neg (by linarith)]
  refine ⟨_, rfl, rnd_nonneg_of (div_nonneg v0 (by linarith)), ?_, ?_⟩
  · have := rnd_mono (show v / fadd v 1 ≤ 1 by rw [div_le_one (by linarith)]; exact ev)
    rwa [rnd_one] at this
  · intro hu
    have hcount : rnd (u.useCount : ℚ) ≤ (10 ^ 14 : ℚ) := by
      have h1 : ((u.useCount : ℚ)) ≤ ((10 ^ 14 : ℕ) : ℚ) := by exact_mod_cast hu
      have h2 := rnd_mono h1
      rw [rnd_nat _ (by norm_num)] at h2
      exact_mod_cast h2
    have hvle : v ≤ 10 ^ 14 := by
      have h1 : rnd (u.useCount : ℚ) / fadd r 1 ≤ ((10 ^ 14 : ℕ) : ℚ) := by
        rw [div_le_iff₀ (by linarith)]; push_cast; nlinarith
      have h2 := rnd_mono h1
      rw [rnd_nat _ (by norm_num)] at h2
      exact_mod_cast h2
    have hadd : |fadd v 1 - (v + 1)| ≤ (v + 1) / 10 ^ 15 := by
      have hn : (1 : ℚ) / 10 ^ 200 ≤ 1 := by rw [div_le_one (by positivity)]; norm_num
      have := rnd_rel (v + 1) (by rw [abs_of_nonneg (by linarith)]; linarith)
      rwa [abs_of_nonneg (show 0 ≤ v + 1 by linarith)] at this
    have hlow : (v + 1) - (v + 1) / 10 ^ 15 ≤ fadd v 1 := by
      have := (abs_le.1 hadd).1; linarith
    set q : ℚ := v / fadd v 1 with hq
    have q0 : 0 ≤ q := div_nonneg v0 (by linarith)
    by_cases hs : q ≤ 1 / 2
    · have := rnd_mono hs
      rw [rnd_half] at this
      linarith
    · push Not at hs
      have hn : (1 : ℚ) / 10 ^ 200 ≤ 1 / 2 := by
        rw [div_le_div_iff₀ (by positivity) (by norm_num)]; norm_num
      have := rnd_rel q (by rw [abs_of_nonneg q0]; linarith)
      rw [abs_of_nonneg q0] at this
      have h1 := (abs_le.1 this).2
      have h2 : rnd q ≤ q + q / 10 ^ 15 := by linarith
      have h3 : q * fadd v 1 = v := by rw [hq]; field_simp
      have h4 : q * ((v + 1) - (v + 1) / 10 ^ 15) ≤ v := (mul_le_mul_of_nonneg_left hlow q0).trans h3.le
      by_contra hc
      push Not at hc
      have h5 : 1 / (1 + 1 / 10 ^ 15) ≤ q := by
        rw [div_le_iff₀ (by positivity)]; linarith
      have h6 : (1 / (1 + 1 / 10 ^ 15)) * ((v + 1) - (v + 1) / 10 ^ 15) ≤ v := by
        refine le_trans (mul_le_mul_of_nonneg_right h5 ?_) h4
        have : (v + 1) / 10 ^ 15 ≤ v + 1 := div_le_self (by linarith) (by norm_num)
        linarith
      rw [div_mul_eq_mul_div, div_le_iff₀ (by positivity)] at h6
      norm_num at h6
      linarith

end

/-- **C45 (use).** Using an item adds exactly 1, for eternal input 1000000, to the count and sets the time. -/
theorem C45_use (u : Usage) (now : Int) :
    Usage_use u now false = ⟨u.useCount + 1, now⟩ ∧ Usage_use u now true = ⟨u.useCount + 1000000, now⟩ := ⟨rfl, rfl⟩

section
attribute [local instance] exactArith

/-- Usefulness in closed form, exact arithmetic. -/
theorem usefulness_exact (u : Usage) (now : Int) (h : 0 ≤ u.useCount) :
    Usage_usefulness u now =
      .ok ((u.useCount : ℚ) / ((u.useCount : ℚ) + (max 0 (now - u.lastUsed) : Int) + 1)) := by
  unfold Usage_usefulness
  set r : ℚ := ((max 0 (now - u.lastUsed) : Int) : ℚ) with hr
  have r0 : 0 ≤ r := by rw [hr]; exact_mod_cast le_max_left _ _
  have c0 : (0 : ℚ) ≤ (u.useCount : ℚ) := by exact_mod_cast h
  have e1 : fadd (rnd r) 1 = r + 1 := rfl
  have e2 : (rnd (u.useCount : ℚ) : ℚ) = u.useCount := rfl
  simp only [e1, e2, fdiv]
  rw [if_neg (by linarith)]
  simp only [R.ok_bind]
  have e3 : ∀ x : ℚ, (rnd x : ℚ) = x := fun _ => rfl
  have e4 : ∀ x : ℚ, fadd x 1 = x + 1 := fun _ => rfl
  rw [e3, e4, if_neg (by positivity), e3]
  congr 1
  field_simp
  ring

/-- **C45 (order).** In exact arithmetic usefulness grows strictly with the use count, falls strictly with the
time since the last use (once that time is in the past), stays constant for times before it, and never drops by
using the item. -/
theorem C45_order (u w : Usage) (now later : Int) (hu : 0 ≤ u.useCount) :
    (u.useCount < w.useCount → u.lastUsed = w.lastUsed → ∃ x y,
      Usage_usefulness u now = .ok x ∧ Usage_usefulness w now = .ok y ∧ x < y) ∧
    (0 < u.useCount → u.lastUsed ≤ now → now < later → ∃ x y,
      Usage_usefulness u now = .ok x ∧ Usage_usefulness u later = .ok y ∧ y < x) ∧
    (∀ b, u.lastUsed ≤ now → ∃ x y,
      Usage_usefulness u now = .ok x ∧ Usage_usefulness (Usage_use u now b) now = .ok y ∧ x < y) := by
  have c0 : (0 : ℚ) ≤ (u.useCount : ℚ) := by exact_mod_cast hu
  refine ⟨?_, ?_, ?_⟩
  · intro hc hl
    refine ⟨_, _, usefulness_exact u now hu, usefulness_exact w now (by omega), ?_⟩
    rw [hl]
    have r0 : (0 : ℚ) ≤ ((max 0 (now - w.lastUsed) : Int) : ℚ) := by exact_mod_cast le_max_left _ _
    generalize ((max 0 (now - w.lastUsed) : Int) : ℚ) = r at *
    have hc' : (u.useCount : ℚ) < w.useCount := by exact_mod_cast hc
    rw [div_lt_div_iff₀ (by linarith) (by linarith)]
    nlinarith
  · intro hc hl ht
    refine ⟨_, _, usefulness_exact u now hu, usefulness_exact u later hu, ?_⟩
    have hc' : (0 : ℚ) < u.useCount := by exact_mod_cast hc
    have r0 : (0 : ℚ) ≤ ((max 0 (now - u.lastUsed) : Int) : ℚ) := by exact_mod_cast le_max_left _ _
    have r1 : ((max 0 (now - u.lastUsed) : Int) : ℚ) < ((max 0 (later - u.lastUsed) : Int) : ℚ) := by
      have : (max 0 (now - u.lastUsed) : Int) < max 0 (later - u.lastUsed) := by omega
      exact_mod_cast this
    generalize ((max 0 (now - u.lastUsed) : Int) : ℚ) = r at *
    generalize ((max 0 (later - u.lastUsed) : Int) : ℚ) = s at *
    rw [div_lt_div_iff₀ (by linarith) (by linarith)]
    nlinarith
  · intro b hl
    have hb : u.useCount < (Usage_use u now b).useCount := by
      cases b <;> simp [Usage_use, ETERNAL_INPUT_USAGE_BOOST]
    refine ⟨_, _, usefulness_exact u now hu, usefulness_exact _ now (by omega), ?_⟩
    have e : ((max 0 (now - (Usage_use u now b).lastUsed) : Int) : ℚ) = 0 := by simp [Usage_use]
    rw [e]
    have r0 : (0 : ℚ) ≤ ((max 0 (now - u.lastUsed) : Int) : ℚ) := by exact_mod_cast le_max_left _ _
    generalize ((max 0 (now - u.lastUsed) : Int) : ℚ) = r at *
    have hc' : (u.useCount : ℚ) < (Usage_use u now b).useCount := by exact_mod_cast hb
    rw [div_lt_div_iff₀ (by linarith) (by linarith)]
    nlinarith

example : Usage_usefulness ⟨3, 10⟩ 12 = .ok (1 / 2) := by decide +kernel

end
end ONA
