import Verif.Model.Graph
/-! # Cell filter, wall distance, coarse graph (include/CoMMA/Util.h) -/

namespace CoMMA

/-- `filter_cells_by_n_edges` (include/CoMMA/Util.h:310-337).  `allowed` is the list of
the elements of the unordered set; indices are unbounded (no overflow in the sum). -/
def filterCells (indices : List Nat) (nBnd allowed : List Int) : M (List Nat) :=
  let target := allowed.filter (fun a => decide (0 < a))
  if target.isEmpty then pure []
  else (List.range nBnd.length).foldlM (fun filtered c => do
    let e ← rd indices (c + 1)
    let b ← rd indices c
    let k ← rd nBnd c
    pure (if allowed.contains ((e : Int) - (b : Int) + k) then filtered ++ [c] else filtered)) []

/-- body of the inner loop of the wall distance: look at neighbour `x` when the distance
through the current cell is `d` (include/CoMMA/Util.h:387-396) -/
def wallVisit (d : Int) (st : List Int × List Nat) (x : Nat) : M (List Int × List Nat) := do
  let cur ← rd st.1 x
  if cur < 0 then do
    let dist ← wr st.1 x d
    pure (dist, st.2 ++ [x])
  else if d < cur then do
    let dist ← wr st.1 x d
    pure (dist, st.2)
  else pure st

/-- outer loop of the wall distance (include/CoMMA/Util.h:378-398): queue of cells to
visit and distances so far.  Decreasing row offsets (an empty range in the code) are
reported as undefined behaviour by `rowM`. -/
def wallLoop (rowPtr colInd : List Nat) : Nat → List Nat → List Int → M (List Int)
  | _, [], dist => pure dist
  | 0, _ :: _, _ => .error .fuel
  | f + 1, cur :: q, dist => do
    let d ← rd dist cur
    let row ← rowM rowPtr colInd cur
    let (dist, q) ← row.foldlM (wallVisit (d + 1)) (dist, q)
    wallLoop rowPtr colInd f q dist

/-- `compute_neighbourhood_based_wall_distance` (include/CoMMA/Util.h:360-399).  The size
`neigh_idxs.size() - 1` is that of a non-empty vector of offsets. -/
def wallDistance (rowPtr colInd wall : List Nat) : M (List Int) := do
  let n := rowPtr.length - 1
  let (dist, q) ← wall.foldlM (fun (st : List Int × List Nat) c => do
    let dist ← wr st.1 c 0
    pure (dist, st.2 ++ [c])) (List.replicate n (-1), [])
  wallLoop rowPtr colInd (wall.length + n) q dist

end CoMMA
