import Verif.Model.Graph
/-! # Local graphs of coarse cells (include/CoMMA/Dual_Graph.h, class `Subgraph`, and
include/CoMMA/Coarse_Cell.h, class `Coarse_Cell_Subgraph`) -/

namespace CoMMA

/-- Data members of `Subgraph` (include/CoMMA/Dual_Graph.h:342-386 and those of `Graph`).  The
flag `_is_isotropic` and the marks of the searches are left out. -/
structure SGraph (W : Type) where
  nbC : Nat
  rowPtr : List Nat
  colInd : List Nat
  values : List W
  volumes : List W
  mapping : List Nat
  cardinality : Nat
  compactness : Nat

variable {W : Type}

/-- loop of the constructor over the rows (include/CoMMA/Dual_Graph.h:356-362) -/
def sgCompactness (rowPtr : List Nat) (nbC : Nat) : M Nat :=
  (List.range nbC).foldlM (fun k c => do
    let b ← rd rowPtr c
    let e ← rd rowPtr (c + 1)
    if b ≤ e then (if e - b < k then pure (e - b) else pure k) else .error .ub) nbC

/-- constructor of `Subgraph` (include/CoMMA/Dual_Graph.h:342-363); decreasing row pointers are
reported as undefined behaviour -/
def SGraph.new (nbC : Nat) (rowPtr colInd : List Nat) (values volumes : List W) (mapping : List Nat) :
    M (SGraph W) := do
  let k ← sgCompactness rowPtr nbC
  pure { nbC := nbC, rowPtr := rowPtr, colInd := colInd, values := values, volumes := volumes,
         mapping := mapping, cardinality := nbC, compactness := k }

/-- state of the loop over the fine cells in the constructor of `Coarse_Cell_Subgraph`:
`position`, `CSR_row`, `col_ind`, `CSR_vals`, `volumes` (include/CoMMA/Coarse_Cell.h:178-184) -/
structure SGBuild (W : Type) where
  position : Nat
  rowPtr : List Nat
  colInd : List Nat
  values : List W
  volumes : List W

/-- one neighbour (include/CoMMA/Coarse_Cell.h:193-198) -/
def sgNeigh (s : NSet) (b : SGBuild W) (e : Nat × W) : SGBuild W :=
  if s.has e.1 then
    { b with position := b.position + 1, colInd := b.colInd ++ [e.1], values := b.values ++ [e.2] }
  else b

/-- one fine cell (include/CoMMA/Coarse_Cell.h:185-202) -/
def sgCell (g : Graph W) (s : NSet) (b : SGBuild W) (i : Nat) : M (SGBuild W) := do
  let row ← g.neighs i
  let ws ← g.weights i
  let v ← rd g.volumes i
  let b := (row.zip ws).foldl (sgNeigh s) b
  pure { b with rowPtr := b.rowPtr ++ [b.position], volumes := b.volumes ++ [v] }

/-- constructor of `Coarse_Cell_Subgraph`, local graph (include/CoMMA/Coarse_Cell.h:165-214); `h`
gives the iteration order over the unordered set of cells -/
def sgOfCell (g : Graph W) (h : Hash) (s : NSet) : M (SGraph W) := do
  let mapping := h.ord 7 s.elems
  let b ← mapping.foldlM (sgCell g s) ⟨0, [0], [], [], []⟩
  SGraph.new s.card b.rowPtr (b.colInd.map (fun j => mapping.idxOf j)) b.values b.volumes mapping

/-- neighbours in the local numbering; those that are not in the subgraph are left out
(include/CoMMA/Dual_Graph.h:407-415) -/
def localNeighs (mapping vNeigh : List Nat) : List Nat :=
  vNeigh.filterMap (fun c => if c ∈ mapping then some (mapping.idxOf c) else none)

/-- insertion in a vector before position `p` (include/CoMMA/Dual_Graph.h:429-435); a position after the end is undefined behaviour -/
def insAt {α : Type} (v : List α) (p : Nat) (x : α) : M (List α) :=
  if p ≤ v.length then pure (v.take p ++ x :: v.drop p) else .error .ub

/-- one neighbour (include/CoMMA/Dual_Graph.h:425-452): all row pointers from that of the
neighbour on are incremented -/
def insertEdge (localIndex : Nat) (weight : List W) (s : Nat × SGraph W) (elem : Nat) : M (Nat × SGraph W) := do
  let p ← rd s.2.rowPtr elem
  let ci ← insAt s.2.colInd p localIndex
  let w ← rd weight s.1
  let vs ← insAt s.2.values p w
  pure (s.1 + 1, { s.2 with
    rowPtr := s.2.rowPtr.mapIdx (fun k x => if elem ≤ k then x + 1 else x),
    colInd := ci ++ [elem], values := vs ++ [w] })

/-- `insert_node` (include/CoMMA/Dual_Graph.h:398-456): the last row pointer grows by the number
of neighbours given, in the subgraph or not; the counters are not updated -/
def SGraph.insertNode (sg : SGraph W) (vNeigh : List Nat) (i : Nat) (volume : W) (weight : List W) :
    M (SGraph W) := do
  let s ← (localNeighs sg.mapping vNeigh).foldlM (insertEdge (sg.rowPtr.length - 1) weight) (0, sg)
  let last ← rd s.2.rowPtr (s.2.rowPtr.length - 1)
  pure { s.2 with
    rowPtr := s.2.rowPtr ++ [last + vNeigh.length],
    volumes := s.2.volumes ++ [volume],
    mapping := s.2.mapping ++ [i] }

/-- A row searched for entries to be erased (include/CoMMA/Dual_Graph.h:472-488): `erase(it)`
invalidates `it`, which is then incremented.  So an entry that is found is undefined behaviour,
and nothing happens otherwise. -/
def eraseInRow (sg : SGraph W) (i elem : Nat) : M Unit := do
  let row ← rowM sg.rowPtr sg.colInd elem
  if i ∈ row then .error .ub else pure ()

/-- numbering of the nodes after the removal of node `i` (include/CoMMA/Dual_Graph.h:517-534) -/
def renumberCol (size i : Nat) (c : Nat) : M Nat :=
  if size ≤ c then .error .ub
  else if c = i then .error .assertion
  else if c < i then pure c else pure (c - 1)

/-- `remove_node` (include/CoMMA/Dual_Graph.h:460-535).  In the loop over the row of the node
every entry is erased through an iterator that is then incremented: undefined behaviour if the
row is not empty. -/
def SGraph.removeNode (sg : SGraph W) (cell : Nat) : M (SGraph W) := do
  let i := sg.mapping.idxOf cell
  let row ← rowM sg.rowPtr sg.colInd i
  row.forM (eraseInRow sg i)
  if row ≠ [] then .error .ub
  else if i < sg.volumes.length ∧ i < sg.mapping.length then do
    let rowPtr := sg.rowPtr.eraseIdx i
    let ci ← sg.colInd.mapM (renumberCol (rowPtr.length + 1) i)
    pure { sg with rowPtr := rowPtr, colInd := ci, volumes := sg.volumes.eraseIdx i,
                   mapping := sg.mapping.eraseIdx i }
  else .error .ub

end CoMMA
