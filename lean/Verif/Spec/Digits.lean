import Verif.Spec.RoundedGeo
import Mathlib.Data.Int.Log
import Mathlib.Data.Rat.Floor

/-!
# Specification: numbers with a fixed count of binary digits

Single precision floating point numbers have 24 binary digits; results are
rounded to the nearest one, ties to the one with an even last digit. Exponents
are not limited here: overflow, underflow and the special values are left out.
-/

namespace Jagua

/-- A way to round to whole numbers. -/
structure WholeRounding (c : ℚ) where
  fn : ℚ → ℤ
  mono : Monotone fn
  whole : ∀ z : ℤ, fn z = z
  near : ∀ x, |(fn x : ℚ) - x| ≤ c

/-- the distance of the numbers with `k + 1` digits around `x` -/
def digitGap (k : ℕ) (x : ℚ) : ℚ := 2 ^ (Int.log 2 x - k)

/-- rounding of a positive number to `k + 1` digits -/
def roundPos {c : ℚ} (w : WholeRounding c) (k : ℕ) (x : ℚ) : ℚ := w.fn (x / digitGap k x) * digitGap k x

/-- rounding to `k + 1` binary digits -/
def roundDigits {c : ℚ} (w : WholeRounding c) (k : ℕ) (x : ℚ) : ℚ :=
  if x = 0 then 0 else if x < 0 then -roundPos w k (-x) else roundPos w k x

/-- to the nearest whole number, ties to the even one -/
def halfEven (x : ℚ) : ℤ :=
  if x - ⌊x⌋ < 1 / 2 then ⌊x⌋ else if 1 / 2 < x - ⌊x⌋ then ⌊x⌋ + 1 else if ⌊x⌋ % 2 = 0 then ⌊x⌋ else ⌊x⌋ + 1

end Jagua
