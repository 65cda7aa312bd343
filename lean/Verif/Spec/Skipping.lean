import Verif.Spec.CoarseGraph
/-! # Meshes that agree -/

namespace CoMMA

variable {W : Type} [Num W]

/-- two meshes with the same graph and the same boundary faces, volumes (if additions are exact)
and priorities (if they are totally ordered) -/
structure SameMesh (g g' : MeshData W) : Prop where
  adjIdx : g.adjIdx = g'.adjIdx
  adj : g.adj = g'.adj
  nBnd : g.nBnd = g'.nBnd
  volumes : CommAdd W → g.volumes = g'.volumes
  priority : LawfulLt W → g.priority = g'.priority

end CoMMA
