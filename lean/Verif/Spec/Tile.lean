import Verif.Spec.Grid
/-! # Blocks of any width of a structured grid -/

namespace CoMMA

/-- the cells at `u` and `v` are in the same block of `B` cells along each axis -/
def SameTile (B D : Nat) (u v : Nat → Nat) : Prop := ∀ ax < D, u ax / B = v ax / B

end CoMMA
