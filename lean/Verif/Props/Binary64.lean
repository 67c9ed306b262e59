import Verif.Proofs.Binary64
import Verif.Props.Truth
/-
IEEE binary64 arithmetic is an instance of the arithmetic of the model: the theorems hold for it.
-/
namespace ONA
open Binary64

/-- The values the arithmetic leaves unchanged are the doubles (with an unbounded exponent above). -/
theorem binary64_doubles (x : ℚ) : binary64.rnd x = x ↔ ∃ m e : ℤ, |m| ≤ 2 ^ 53 ∧ -1074 ≤ e ∧ x = m * 2 ^ e :=
  ⟨fun h => isDouble_of_round h, fun h => round_of_isDouble h⟩

/-- The result of an operation is a double, and no double is closer to the exact result. -/
theorem binary64_nearest (x : ℚ) : binary64.rnd (binary64.rnd x) = binary64.rnd x ∧
    ∀ f, binary64.rnd f = f → |binary64.rnd x - x| ≤ |f - x| :=
  ⟨round_idem x, fun f h => by
    have := round_best x (isDouble_of_round h)
    rw [Rat.cast_id, Rat.cast_id] at this
    exact this⟩

/-- 1 + 2^-53 is between two doubles: the even one is taken. -/
theorem binary64_even : binary64.rnd (1 + 1 / 2 ^ 53) = 1 ∧ binary64.rnd (1 + 3 / 2 ^ 53) = 1 + 4 / 2 ^ 53 := by
  have hl : ∀ {x : ℚ}, 1 ≤ x → x < 2 → lastPlace x = -52 := by
    intro x h1 h2
    unfold lastPlace
    rw [log_interval (k := 0) (by simpa using h1) (by simpa using h2)]
    norm_num
  have tie : ∀ m : ℤ, Int.fract ((m : ℚ) + 1 / 2) = 1 / 2 ∧ ⌊(m : ℚ) + 1 / 2⌋ = m := by
    intro m
    have hf : ⌊(m : ℚ) + 1 / 2⌋ = m := by
      rw [Int.floor_intCast_add]
      norm_num
    refine ⟨?_, hf⟩
    rw [← Int.self_sub_floor, hf]
    ring
  constructor
  · show Binary64.round _ = _
    unfold Binary64.round nearest
    rw [hl (by norm_num) (by norm_num),
      show ((1 + 1 / 2 ^ 53) / 2 ^ (-52 : ℤ) : ℚ) = ((2 ^ 52 : ℤ) : ℚ) + 1 / 2 by norm_num, (tie _).1, (tie _).2,
      if_neg (lt_irrefl _), if_neg (lt_irrefl _), if_pos (by decide)]
    norm_num
  · show Binary64.round _ = _
    unfold Binary64.round nearest
    rw [hl (by norm_num) (by norm_num),
      show ((1 + 3 / 2 ^ 53) / 2 ^ (-52 : ℤ) : ℚ) = ((2 ^ 52 + 1 : ℤ) : ℚ) + 1 / 2 by norm_num, (tie _).1, (tie _).2,
      if_neg (lt_irrefl _), if_neg (lt_irrefl _), if_neg (by decide)]
    norm_num

/-- For example, the truth functions stay in their range with doubles. -/
example : ∀ F ∈ @allTruthFunctions binary64, @TruthFnOk binary64 F := @C20_truth_functions binary64

end ONA
