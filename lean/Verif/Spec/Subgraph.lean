import Verif.Model.Subgraph
import Verif.Spec.Agglomeration
/-! # Vocabulary for local graphs -/

namespace CoMMA

variable {W : Type}

/-- the entries of row `i` of a compressed vector -/
def entriesOfRow {α : Type} (rowPtr : List Nat) (v : List α) (i : Nat) : List α :=
  match rowPtr[i]?, rowPtr[i + 1]? with
  | some b, some e => (v.drop b).take (e - b)
  | _, _ => []

/-- `sg` is the part of `g` on the cells of `mapping`: a valid graph in compressed row storage
whose node `l` stands for cell `mapping[l]`.  Row by row it holds the neighbours that are in the
subgraph, in the same order, with their weights, and the volume. -/
structure InducedGraph (g : Graph W) (sg : SGraph W) : Prop where
  nodup : sg.mapping.Nodup
  crs : ValidCRS sg.mapping.length sg.rowPtr sg.colInd
  volumes : ∀ l c : Nat, sg.mapping[l]? = some c → sg.volumes[l]? = g.volumes[c]?
  vlen : sg.volumes.length = sg.mapping.length
  rows : ∀ l c : Nat, sg.mapping[l]? = some c →
    (rowOf sg.rowPtr sg.colInd l).map (fun l' => sg.mapping[l']?) =
      ((rowOf g.rowPtr g.colInd c).filter (fun x => decide (x ∈ sg.mapping))).map some
  weights : ∀ l c : Nat, sg.mapping[l]? = some c →
    entriesOfRow sg.rowPtr sg.values l =
      (((rowOf g.rowPtr g.colInd c).zip (entriesOfRow g.rowPtr g.values c)).filter
        (fun e => decide (e.1 ∈ sg.mapping))).map (·.2)

/-- the counters of a subgraph: number of nodes, and smallest number of neighbours of a node,
not more than the number of nodes -/
structure Counted (sg : SGraph W) : Prop where
  nbC : sg.nbC = sg.mapping.length
  card : sg.cardinality = sg.mapping.length
  le : sg.compactness ≤ sg.mapping.length
  min : ∀ l, l < sg.mapping.length → sg.compactness ≤ (rowOf sg.rowPtr sg.colInd l).length
  reached : sg.compactness = sg.mapping.length ∨
    ∃ l, l < sg.mapping.length ∧ sg.compactness = (rowOf sg.rowPtr sg.colInd l).length

end CoMMA
