import Verif.Spec.Graph
import Verif.Spec.CoarseGraph
/-! # Vocabulary for the connectivity check -/

namespace CoMMA

/-- every cell can be reached from one of the cells in `from_` -/
def CoveredFrom (n : Nat) (rowPtr colInd : List Nat) (from_ : Nat → Prop) : Prop :=
  ∀ x, x < n → ReachableFrom (Adj rowPtr colInd) from_ x

end CoMMA
