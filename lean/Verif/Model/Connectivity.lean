import Verif.Model.Graph
/-! # Depth first search and connectivity check (include/CoMMA/Dual_Graph.h, class `Graph`)

`BFS` (include/CoMMA/Dual_Graph.h:119-150) is not modelled: it is a member of a class template
that does not compile when instantiated (`push_pack`). -/

namespace CoMMA

/-- The members of `Graph` used by the search (include/CoMMA/Dual_Graph.h:85-96): the compressed
rows and the marks `_visited`, which outlive the calls. -/
structure VGraph where
  nbC : Nat
  rowPtr : List Nat
  colInd : List Nat
  visited : List Bool

/-- Constructor of `Graph`, as far as the search is concerned
(include/CoMMA/Dual_Graph.h:67-80) -/
def VGraph.new (nbC : Nat) (rowPtr colInd : List Nat) : VGraph :=
  { nbC := nbC, rowPtr := rowPtr, colInd := colInd, visited := List.replicate nbC false }

/-- Recursive part of `DFS` (include/CoMMA/Dual_Graph.h:107-114).  The first argument bounds the
depth of the recursion. -/
def dfsMarks (rowPtr colInd : List Nat) : Nat → List Bool → Nat → M (List Bool)
  | 0, _, _ => .error .fuel
  | fuel + 1, vis, i => do
    let vis ← wr vis i true
    let row ← rowM rowPtr colInd i
    row.foldlM (fun vis j => do
      let b ← rd vis j
      if b then pure vis else dfsMarks rowPtr colInd fuel vis j) vis

/-- `DFS` (include/CoMMA/Dual_Graph.h:107-114), with a depth that always suffices
(`dfsMarks_ok`) -/
def VGraph.dfs (g : VGraph) (i : Nat) : M VGraph := do
  let vis ← dfsMarks g.rowPtr g.colInd (g.visited.length + 1) g.visited i
  pure { g with visited := vis }

/-- the loop that tests the marks (include/CoMMA/Dual_Graph.h:246-250) -/
def allVisited (vis : List Bool) : List Nat → M Bool
  | [] => pure true
  | i :: l => do
    let b ← rd vis i
    if b then allVisited vis l else pure false

/-- `check_connectivity` (include/CoMMA/Dual_Graph.h:238-252): `nbC` marks are appended, the old
ones are not reset -/
def VGraph.check (g : VGraph) : M (Bool × VGraph) :=
  let g : VGraph := { g with visited := g.visited ++ List.replicate g.nbC false }
  if g.nbC = 1 then pure (true, g)
  else do
    let c ← rd g.colInd 0
    let g ← g.dfs c
    let b ← allVisited g.visited (List.range g.nbC)
    pure (b, g)

/-- calls a user can make on a graph that change the marks: `DFS` and `check_connectivity`
(include/CoMMA/Dual_Graph.h:107-114, 238-252) -/
inductive GraphCall where
  | search (i : Nat)
  | check
deriving DecidableEq

/-- one call (include/CoMMA/Dual_Graph.h:107-114, 238-252); a check adds its answer to the list -/
def VGraph.call (s : List Bool × VGraph) : GraphCall → M (List Bool × VGraph)
  | .search i => do
    let g ← s.2.dfs i
    pure (s.1, g)
  | .check => do
    let r ← s.2.check
    pure (s.1 ++ [r.1], r.2)

/-- a history of calls (include/CoMMA/Dual_Graph.h:107-114, 238-252): answers of the checks, in order -/
def VGraph.calls (g : VGraph) (l : List GraphCall) : M (List Bool × VGraph) :=
  l.foldlM VGraph.call ([], g)

end CoMMA
