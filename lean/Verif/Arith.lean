import Verif.Prelude

/-! # Arithmetic

The operations on numbers that the code uses, without any laws. Every field has
them; so has any arithmetic with rounding. -/

namespace Jagua

/-- The operations of `fsize` that are used; no laws are assumed. -/
class Arith (K : Type*) extends Zero K, One K, Add K, Sub K, Neg K, Mul K, Div K, NatCast K, Pow K ℕ

attribute [instance 20] Arith.toZero Arith.toOne Arith.toAdd Arith.toSub Arith.toNeg Arith.toMul Arith.toDiv Arith.toNatCast Arith.toPow

/-- exact arithmetic -/
instance Field.toArith {K : Type*} [Field K] : Arith K := {}

/-- `f32::abs` -/
def fabs {K : Type*} [Arith K] [LinearOrder K] (x : K) : K := max x (-x)

@[simp] theorem fabs_eq {K : Type*} [Field K] [LinearOrder K] (x : K) : fabs x = |x| := rfl

/-- Adding up from the left, starting at zero, as `Iterator::sum` and the loops of the code do. -/
def fsum {K : Type*} [Arith K] (l : List K) : K := l.foldl (· + ·) 0

@[simp] theorem fsum_eq {K : Type*} [Field K] (l : List K) : fsum l = l.sum := (List.sum_eq_foldl (xs := l)).symm

end Jagua
