import Verif.Spec.WholeCall
/-! # Vocabulary for the front of the agglomeration -/

namespace CoMMA

variable {W : Type} [Num W]

/-- cells next to the coarse cells are agglomerated first -/
def NeighbourhoodFirst (a : Args W) : Prop := a.order = .neighbourhood ∨ a.order = .neighbourhoodOnePoint

/-- cell `i` has the largest number of boundary faces; numbers above the dimension count as the
dimension -/
def MostBoundary (a : Args W) (i : Nat) : Prop :=
  ∃ b, a.nBnd[i]? = some b ∧ ∀ b' ∈ a.nBnd, min b' a.dim.toNat ≤ min b a.dim.toNat

/-- cell `i` shares a face with a cell of a coarse cell with a number below `k` -/
def TouchesEarlier (a : Args W) (f : List Nat) (k i : Nat) : Prop :=
  ∃ (j : Nat) (l : Nat), Adj a.rowPtr a.colInd j i ∧ f[j]? = some l ∧ l < k

end CoMMA
