import Verif.Spec.WholeCall
import Verif.Spec.Features
/-! # Specification: the same mesh with another numbering of its cells -/

namespace CoMMA

variable {W : Type} [Num W]

/-- `σ` gives each cell its new number, `τ` its old number back -/
structure Renumbering (σ τ : Nat → Nat) : Prop where
  back : ∀ x, τ (σ x) = x
  forth : ∀ x, σ (τ x) = x

/-- `a'` is the call `a` on the same mesh, with cell `i` called `σ i`: it has the same faces
with the same weights, listed in any order, the same volume, center, priority and number of
boundary faces.  All other arguments are the same. -/
structure Renumbered (σ : Nat → Nat) (a a' : Args W) : Prop where
  faces : ∀ i, (facesOf (graphOf a') (σ i)).Perm ((facesOf (graphOf a) i).map (fun e => (σ e.1, e.2)))
  volumes : ∀ i, a'.volumes[σ i]? = a.volumes[i]?
  centers : ∀ i, a'.centers[σ i]? = a.centers[i]?
  prio : ∀ i, a'.prio[σ i]? = a.prio[i]?
  bnd : ∀ i, a'.nBnd[σ i]? = a.nBnd[i]?
  compliant : ∀ i, σ i ∈ a'.compliant ↔ i ∈ a.compliant
  others : a' = { a with rowPtr := a'.rowPtr, colInd := a'.colInd, values := a'.values, volumes := a'.volumes,
                         centers := a'.centers, prio := a'.prio, nBnd := a'.nBnd, compliant := a'.compliant }

/-- cells with the same priority keep their order (nothing to ask if the priorities are
pairwise different) -/
def KeepsTies (σ : Nat → Nat) (prio : List W) : Prop :=
  ∀ (i j : Nat) (w : W), prio[i]? = some w → prio[j]? = some w → i < j → σ i < σ j

/-- cells with more boundary faces are agglomerated first -/
def BoundaryFirst (a : Args W) : Prop := a.order = .boundary ∨ a.order = .boundaryOnePoint

end CoMMA
