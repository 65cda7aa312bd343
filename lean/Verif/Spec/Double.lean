import Verif.Model.Double
import Verif.Spec.Features
import Mathlib.Algebra.Order.Field.Power
import Mathlib.Algebra.Order.Field.Rat
import Mathlib.Data.Rat.Lemmas
import Mathlib.Algebra.Field.Rat
/-! # What doubles stand for, and laws of rounded sums -/

namespace CoMMA

/-- value of a code: significand times a power of two -/
def Dbl.valueN (c : Nat) : ℚ := (Dbl.mant c : ℚ) * (2 : ℚ) ^ Dbl.expo c

/-- the number a double stands for -/
def Dbl.value (a : Dbl) : ℚ := if a.code < 0 then -Dbl.valueN a.code.natAbs else Dbl.valueN a.code.natAbs

/-- neither infinite nor beyond -/
def Dbl.Finite (a : Dbl) : Prop := a.code.natAbs < Dbl.infC

instance (a : Dbl) : Decidable a.Finite := inferInstanceAs (Decidable (_ < _))

/-- Rounded addition: numbers of type `W` stand for rational numbers, `Fin` tells which are finite, the relative error of a
sum is at most `u`, nothing is lost when adding to zero.  Sums do not become finite again. -/
structure RoundedAdd (W : Type) [Num W] (v : W → ℚ) (Fin : W → Prop) (u : ℚ) : Prop where
  nonneg : 0 ≤ u
  zero : v (Num.ofNat 0) = 0
  zeroAdd : ∀ a : W, Num.add (Num.ofNat 0) a = a
  finite : ∀ a b : W, Fin (Num.add a b) → Fin a ∧ Fin b
  add : ∀ a b : W, Fin (Num.add a b) → |v (Num.add a b) - (v a + v b)| ≤ u * |v a + v b|

/-- Sums of numbers that are not negative: no finite number is larger than the sum. -/
structure GrowingAdd (W : Type) [Num W] (Fin : W → Prop) : Prop where
  zeroAdd : ∀ a : W, Num.add (Num.ofNat 0) a = a
  left : ∀ a b : W, Num.lt b (Num.ofNat 0) = false → Num.lt (Num.add a b) a = false
  right : ∀ a b : W, Fin b → Num.lt a (Num.ofNat 0) = false → Num.lt (Num.add a b) b = false
  pos : ∀ a b : W, Num.lt (Num.ofNat 0) a = true → Num.lt b (Num.ofNat 0) = false →
    Num.lt (Num.ofNat 0) (Num.add a b) = true

/-- the exact sum of the entries of `x` at the positions `l` -/
def exactSum {W : Type} (v : W → ℚ) (x : List W) (l : List Nat) : ℚ := ((entriesAt x l).map v).sum

/-- the exact sum of their absolute values -/
def exactSize {W : Type} (v : W → ℚ) (x : List W) (l : List Nat) : ℚ := ((entriesAt x l).map (fun a => |v a|)).sum

/-- the finest cells of the coarsest cell `k` -/
def finestOf (maps : List (List Nat)) (n k : Nat) : List Nat :=
  (List.range n).filter (fun i => decide (composeMaps maps i = some k))

end CoMMA
