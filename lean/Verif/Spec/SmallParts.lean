import Verif.Spec.Agglomeration
/-! # Connected parts of a mesh -/

namespace CoMMA

/-- `s` lists the cells of a connected part of the mesh, from which no face leads outside -/
structure PartOfMesh (n : Nat) (rowPtr colInd s : List Nat) : Prop where
  nonempty : s ≠ []
  nodup : s.Nodup
  cells : ∀ i ∈ s, i < n
  connected : ConnectedSet rowPtr colInd (fun i => i ∈ s)
  closed : ∀ i ∈ s, ∀ j, Adj rowPtr colInd i j → j ∈ s

end CoMMA
