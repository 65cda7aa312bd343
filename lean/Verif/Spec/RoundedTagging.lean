import Verif.Spec.Lines
import Verif.Spec.Double
/-! # The elongation of a cell -/

namespace CoMMA

/-- `mn` and `mx` are the smallest and the largest weight of the faces of the cell `i`, which
are positive and finite -/
structure ExtremeFaces (g : Graph Dbl) (i : Nat) (mn mx : Dbl) : Prop where
  smallest : FaceWeight g i mn
  largest : FaceWeight g i mx
  between : ∀ w, FaceWeight g i w → mn.value ≤ w.value ∧ w.value ≤ mx.value
  positive : 0 < mn.value
  finite : mx.Finite

end CoMMA
