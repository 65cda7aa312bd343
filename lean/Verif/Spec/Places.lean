import Verif.Spec.Grid
import Verif.Spec.Double
import Mathlib.Data.Real.Basic
/-! # Coordinates of Cartesian meshes -/

namespace CoMMA

/-- coordinates increase along the axes -/
def Increasing (D : Nat) (ext : Nat → Nat) (X : Nat → Nat → ℝ) : Prop := ∀ b < D, ∀ p, p + 1 < ext b → X b p < X b (p + 1)

/-- coordinates in doubles: finite and increasing, by steps that are neither tiny nor huge -/
structure SteadySteps (D : Nat) (ext : Nat → Nat) (X : Nat → Nat → Dbl) : Prop where
  finite : ∀ b < D, ∀ p < ext b, (X b p).Finite
  step : ∀ b < D, ∀ p, p + 1 < ext b → (2 : ℚ) ^ (-450 : Int) ≤ (X b (p + 1)).value - (X b p).value ∧
    (X b (p + 1)).value - (X b p).value ≤ (2 : ℚ) ^ (450 : Int)

end CoMMA
