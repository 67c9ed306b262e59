import Mathlib.Algebra.Order.Ring.Rat
import Mathlib.Algebra.Order.Field.Basic
import Mathlib.Algebra.Order.AbsoluteValue.Basic
import Mathlib.Tactic.NormNum
import Mathlib.Tactic.Linarith
import Verif.Model.Basic
/-
Model of C `double` arithmetic: values are rationals, every operation rounds its exact result.
-/
namespace ONA

/-- The arithmetic the code runs on. `rnd` is the rounding applied after each operation and to each literal.
The laws hold for IEEE binary64 round-to-nearest without overflow, and for exact arithmetic (`exactArith`).
`pow`, `log2` model the libm functions for the arguments the code uses. -/
class Arith where
  rnd : ℚ → ℚ
  rnd_mono : ∀ {x y : ℚ}, x ≤ y → rnd x ≤ rnd y
  rnd_idem : ∀ x, rnd (rnd x) = rnd x
  rnd_neg : ∀ x, rnd (-x) = -rnd x
  rnd_nat : ∀ n : ℕ, n ≤ 2 ^ 53 → rnd n = n
  rnd_half : rnd (1 / 2) = 1 / 2
  /-- relative accuracy away from underflow -/
  rnd_rel : ∀ x : ℚ, 1 / 10 ^ 200 ≤ |x| → |rnd x - x| ≤ |x| / 10 ^ 15
  /-- `1 - x` is exact for doubles in `[1/2, 1]` (Sterbenz) -/
  rnd_one_sub_exact : ∀ {x : ℚ}, rnd x = x → 1 / 2 ≤ x → x ≤ 1 → rnd (1 - x) = 1 - x
  /-- `1 - x` is either absorbed or at least half of `x` is subtracted -/
  rnd_one_sub : ∀ {x : ℚ}, rnd x = x → 0 ≤ x → x ≤ 1 → rnd (1 - x) = 1 ∨ rnd (1 - x) ≤ 1 - x / 2
  /-- gradual underflow: different doubles have a non-zero difference -/
  rnd_sub_ne : ∀ {x y : ℚ}, rnd x = x → rnd y = y → x ≠ y → rnd (x - y) ≠ 0
  /-- `pow(b, (double) n)` -/
  pow : ℚ → ℕ → ℚ
  pow_repr : ∀ b n, rnd (pow b n) = pow b n
  pow_zero : ∀ b, pow b 0 = 1
  pow_nonneg : ∀ {b : ℚ} (n : ℕ), 0 ≤ b → 0 ≤ pow b n
  pow_anti : ∀ {b : ℚ} {m n : ℕ}, 0 ≤ b → b ≤ 1 → m ≤ n → pow b n ≤ pow b m
  /-- `log2(x)` -/
  log2 : ℚ → ℚ
  log2_repr : ∀ x, rnd (log2 x) = log2 x
  log2_ge_one : ∀ {x : ℚ}, 2 ≤ x → 1 ≤ log2 x
  log2_one : log2 1 = 0

export Arith (rnd rnd_rel rnd_one_sub_exact rnd_one_sub rnd_sub_ne rnd_mono rnd_idem rnd_neg rnd_nat rnd_half)

/-- Exact rational arithmetic. -/
@[reducible] def exactArith : Arith where
  rnd x := x
  rnd_mono h := h
  rnd_idem _ := rfl
  rnd_neg _ := rfl
  rnd_nat _ _ := rfl
  rnd_half := rfl
  rnd_rel x _ := by simpa using div_nonneg (abs_nonneg x) (by norm_num)
  rnd_one_sub_exact _ _ _ := rfl
  rnd_one_sub _ h _ := Or.inr (by linarith)
  rnd_sub_ne _ _ h := sub_ne_zero.2 h
  pow b n := b ^ n
  pow_repr _ _ := rfl
  pow_zero b := _root_.pow_zero b
  pow_nonneg n h := _root_.pow_nonneg h n
  pow_anti h0 h1 hmn := pow_le_pow_of_le_one h0 h1 hmn
  log2 x := (Nat.log2 x.floor.toNat : ℕ)
  log2_repr _ := rfl
  log2_ge_one := by
    intro x hx
    have h1 : (2 : ℤ) ≤ x.floor := Rat.le_floor_iff.2 (by exact_mod_cast hx)
    have h2 : 2 ≤ x.floor.toNat := by omega
    have h3 : 1 ≤ Nat.log2 x.floor.toNat := (Nat.le_log2 (by omega)).2 (by omega)
    exact_mod_cast h3
  log2_one := by
    have : (1 : ℚ).floor = 1 := by rfl
    rw [this]
    rfl

section
variable [Arith]

/-- `a + b` -/
def fadd (a b : ℚ) : ℚ := rnd (a + b)
/-- `a - b` -/
def fsub (a b : ℚ) : ℚ := rnd (a - b)
/-- `a * b` -/
def fmul (a b : ℚ) : ℚ := rnd (a * b)
/-- `a / b`; a zero divisor gives an infinity or NaN, both outside the model. -/
def fdiv (a b : ℚ) : R ℚ := if b = 0 then .error .nan else .ok (rnd (a / b))
/-- `MIN(a, b)` (src/Globals.h 61) -/
def cMIN (a b : ℚ) : ℚ := if a < b then a else b
/-- `MAX(a, b)` (src/Globals.h 62) -/
def cMAX (a b : ℚ) : ℚ := if a > b then a else b

/-- `x` is a double. -/
def IsRepr (x : ℚ) : Prop := rnd x = x

end
end ONA
