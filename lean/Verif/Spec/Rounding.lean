import Verif.Model.Core
import Mathlib.Analysis.Real.Sqrt
import Mathlib.Data.Int.Log
import Mathlib.Algebra.Order.Round
/-! # Specification: binary floating point with unlimited exponents

Each operation gives the exact result rounded to a fixed number of binary digits.  A power of
two only moves the point: rounding commutes with it.  Double precision is this arithmetic with
53 digits as long as no result leaves the range of the exponents. -/

namespace CoMMA

/-- rounding commutes with the multiplication by a power of two -/
def BinaryRounding (rnd : ℝ → ℝ) : Prop := ∀ (k : ℤ) (x : ℝ), rnd ((2 : ℝ) ^ k * x) = (2 : ℝ) ^ k * rnd x

/-- arithmetic in which every result is rounded; sums are accumulated from left to right -/
@[reducible] noncomputable def roundedNum (rnd : ℝ → ℝ) (lo hi : ℝ) : Num ℝ where
  lt a b := decide (a < b)
  le a b := decide (a ≤ b)
  eq a b := decide (a = b)
  neg a := -a
  abs a := |a|
  add a b := rnd (a + b)
  sub a b := rnd (a - b)
  mul a b := rnd (a * b)
  div a b := rnd (a / b)
  sqrt a := rnd (Real.sqrt a)
  reduce l := l.foldl (fun s x => rnd (s + x)) 0
  ofNat n := rnd n
  ofInt n := rnd n
  lmin := lo
  lmax := hi
  c090 := rnd (9 / 10)
  cdev := rnd (9396926207859084 / 10 ^ 16)
  ctol := rnd (1 / 10 ^ 12)

/-- the nearest integer, the even one if two are equally near -/
noncomputable def nearestInt (y : ℝ) : ℤ :=
  if Int.fract y < 1 / 2 then ⌊y⌋
  else if 1 / 2 < Int.fract y then ⌊y⌋ + 1
  else if ⌊y⌋ % 2 = 0 then ⌊y⌋ else ⌊y⌋ + 1

/-- the exponent of the last of `p` binary digits of `x` -/
noncomputable def lastDigit (p : Nat) (x : ℝ) : ℤ := Int.log 2 |x| - (p - 1)

/-- the nearest number with `p` binary digits, the one with even last digit if two are equally
near -/
noncomputable def nearestBits (p : Nat) (x : ℝ) : ℝ :=
  if x = 0 then 0 else (2 : ℝ) ^ lastDigit p x * nearestInt (x / (2 : ℝ) ^ lastDigit p x)

end CoMMA
