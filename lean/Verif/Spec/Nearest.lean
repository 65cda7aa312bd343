import Verif.Spec.TopLevel
import Mathlib.Analysis.InnerProductSpace.PiL2
/-! # Neighbours that are almost the nearest ones -/

namespace CoMMA

/-- `j` is a neighbour of `i`, and the square of its distance is at most `K` times the square of the distance of any
neighbour of `i`; `pos` gives the place of the center of a cell -/
structure NearlyNearest {W : Type} (a : Args W) {D : Nat} (pos : List W → EuclideanSpace ℝ (Fin D)) (K : ℝ) (i j : Nat) : Prop where
  adj : Adj a.rowPtr a.colInd i j
  near : ∀ x ci cj cx, Adj a.rowPtr a.colInd i x → a.centers[i]? = some ci → a.centers[j]? = some cj → a.centers[x]? = some cx →
    dist (pos ci) (pos cj) ^ 2 ≤ K * dist (pos ci) (pos cx) ^ 2

end CoMMA
