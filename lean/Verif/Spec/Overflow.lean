import Verif.Model.TopLevel
/-! # Size of the integers -/

namespace CoMMA

variable {W : Type}

/-- The signed type holds the arguments given in it, and is large enough for the mesh (`n`
cells, one entry of `colInd` for each side of a face). -/
structure HoldsInts (P : Platform) (a : Args W) (n : Nat) : Prop where
  mesh : 3 * (a.colInd.length : Int) + 5 * n + 8 ≤ P.intMax
  maxCard : a.maxCard ≤ P.intMax
  thresh : a.singThresh ≤ P.intMax
  bnd : ∀ b ∈ a.nBnd, (b : Int) ≤ P.intMax

end CoMMA
