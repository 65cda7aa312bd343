import Verif.Model.Containers
/-! # CRS graphs (include/CoMMA/Dual_Graph.h, class `Graph`) -/

namespace CoMMA

/-- Data members of `Graph` and `Dual_Graph` (include/CoMMA/Dual_Graph.h:85-102,
609-628).  `_visited` is kept apart (see `Verif.Model.Connectivity`); `_compute_AR`
is recovered from `dim`.  Boundary-face counts are natural numbers (negative counts
are not representable). -/
structure Graph (W : Type) where
  nbC : Nat
  rowPtr : List Nat
  colInd : List Nat
  values : List W
  volumes : List W
  centers : List (List W)
  nBnd : List Nat
  dim : Nat
  compliant : NSet

variable {W : Type}

/-- the iterator range `[v.begin() + b, v.begin() + e)` (include/CoMMA/Dual_Graph.h:173-175); anything outside the
vector is undefined behaviour -/
def slice {α : Type} (v : List α) (b e : Nat) : M (List α) :=
  if b ≤ e ∧ e ≤ v.length then .ok ((v.drop b).take (e - b)) else .error .ub

/-- the entries of row `c` of a compressed vector `v` (include/CoMMA/Dual_Graph.h:166-177) -/
def rowM {α : Type} (rowPtr : List Nat) (v : List α) (c : Nat) : M (List α) := do
  let b ← rd rowPtr c
  let e ← rd rowPtr (c + 1)
  slice v b e

/-- `get_neighbours` and the range `neighbours_cbegin(i_c) .. neighbours_cend(i_c)`
(include/CoMMA/Dual_Graph.h:166-177, 183-196) -/
def Graph.neighs (g : Graph W) (c : Nat) : M (List Nat) := rowM g.rowPtr g.colInd c

/-- `get_weights` and the range `weights_cbegin(i_c) .. weights_cend(i_c)`
(include/CoMMA/Dual_Graph.h:204-215, 221-233) -/
def Graph.weights (g : Graph W) (c : Nat) : M (List W) := rowM g.rowPtr g.values c

/-- `get_nb_of_neighbours` (include/CoMMA/Dual_Graph.h:156-159).  Decreasing row
pointers (negative count) are reported as undefined behaviour. -/
def Graph.nbNeighs (g : Graph W) (c : Nat) : M Nat := do
  let b ← rd g.rowPtr c
  let e ← rd g.rowPtr (c + 1)
  if b ≤ e then pure (e - b) else .error .ub

/-- `compute_fc_compactness_inside_a_cc` (include/CoMMA/Dual_Graph.h:286-305).  The
result is keyed by cell, so the iteration order over `s_fc` is irrelevant; the model
iterates in increasing order. -/
def Graph.fcCompactness (g : Graph W) (s : NSet) : M (NMap Nat) :=
  match s.elems with
  | [] => pure NMap.empty
  | [x] => pure (NMap.empty.insert x 0)
  | l => l.foldlM (fun m i => do
      let row ← g.neighs i
      pure (m.insert i (row.countP (fun n => s.has n)))) NMap.empty

/-- smallest value of a non-empty map, 0 for an empty one
(include/CoMMA/Dual_Graph.h:266-275) -/
def minValue (m : NMap Nat) : Nat :=
  match m.entries with
  | [] => 0
  | e :: es => es.foldl (fun a x => if x.2 < a then x.2 else a) e.2

/-- `compute_min_fc_compactness_inside_a_cc` (include/CoMMA/Dual_Graph.h:258-278) -/
def Graph.minCompactness (g : Graph W) (s : NSet) : M Nat :=
  if 1 < s.card then do
    let m ← g.fcCompactness s
    pure (minValue m)
  else pure 0

/-- `get_neighbourhood_of_cc` (include/CoMMA/Dual_Graph.h:889-901); `h` gives the
iteration order over the unordered set of seeds -/
def Graph.neighbourhoodOf (g : Graph W) (h : Hash) (seeds : NSet) (agg : List Bool) : M NSet :=
  (h.ord 1 seeds.elems).foldlM (fun s fc => do
    let row ← g.neighs fc
    row.foldlM (fun s n => do
      let a ← rd agg n
      pure (if !a && !seeds.has n then s.insert n else s)) s) NSet.empty

end CoMMA
