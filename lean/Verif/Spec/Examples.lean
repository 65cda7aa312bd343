import Verif.Model.Core
/-! # A concrete weight type for examples and counterexamples

Integers with `lmin = 1` play the role of the floating-point type; only `<`, `+`, `*`
and constants matter in the examples. -/

namespace CoMMA

instance exNum : Num Int where
  lt a b := decide (a < b)
  le a b := decide (a ≤ b)
  eq a b := decide (a = b)
  neg a := -a
  abs a := a.natAbs
  add a b := a + b
  sub a b := a - b
  mul a b := a * b
  div a b := a / b
  sqrt a := a
  reduce l := l.foldl (· + ·) 0
  ofNat n := n
  ofInt n := n
  lmin := 1
  lmax := 1000000
  c090 := 0
  cdev := 0
  ctol := 0

theorem exLawful : LawfulLt Int where
  irrefl a := by simp [Num.lt]
  trans a b c := by simp only [Num.lt, decide_eq_true_eq]; omega
  total a b := by simp only [Num.lt, decide_eq_false_iff_not]; omega

end CoMMA
