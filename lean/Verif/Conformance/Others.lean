import Verif.Conformance.Meshes
import Verif.Model.Util
import Verif.Model.CoarseGraph
import Verif.Model.Connectivity
import Verif.Model.Subgraph
import Verif.Model.Deprecated
/-! # The model against the unit tests: neighbourhoods, utilities, local graphs, deprecated containers
(tests/test_neighbourhood.cpp, tests/test_utils.cpp, tests/test_graph.cpp, tests/test_deprecated.cpp) -/

namespace CoMMA.Tests

/-! ## Neighbourhoods -/

def mesh7 : Graph Dbl := graphOf quad7.args

/-- marks of some cells -/
def marks (n : Nat) (l : List Nat) : List Bool := (List.range n).map l.contains

/-- cells of each order -/
def orders (m : NMap Nat) (n : Nat) : List (List Nat) :=
  (List.range n).map fun o => (m.entries.filter (fun e => e.2 == o + 1)).map (·.1)

/-- up to order three around cell 24 (tests/test_neighbourhood.cpp:52-101) -/
example : val (do let m ← mesh7.neighbourhood Hash.id (NSet.ofList [24]) 3 4 (marks 49 []); pure (orders m.2 3)) =
    some [[17, 23, 25, 31], [10, 16, 18, 22, 26, 30, 32, 38], [3, 9, 11, 15, 19, 21, 27, 29, 33, 37, 39, 45]] := by
  decide +kernel
example : val (do
      let m ← mesh7.neighbourhood Hash.id (NSet.ofList [24]) 3 4 (marks 49 [10, 16, 28, 29, 30, 31, 32, 33, 34])
      pure (orders m.2 3)) =
    some [[17, 23, 25], [18, 22, 26], [11, 15, 19, 21, 27]] := by decide +kernel

/-- around a coarse cell (tests/test_neighbourhood.cpp:102-120) -/
example : val (do let s ← mesh7.neighbourhoodOf Hash.id (NSet.ofList [16, 17, 18, 23, 24]) (marks 49 []); pure s.elems) =
    some [9, 10, 11, 15, 19, 22, 25, 30, 31] := by decide +kernel
example : val (do
      let s ← mesh7.neighbourhoodOf Hash.id (NSet.ofList [16, 17, 18, 23, 24]) (marks 49 [15, 9, 19])
      pure s.elems) =
    some [10, 11, 22, 25, 30, 31] := by decide +kernel

/-- the neighbourhood of order two of cell 24, updated with some cells: candidates and fronts -/
def updates (kind : NbhKind) (l : List Nat) : Option (List Nat × List (List Nat)) :=
  val (do
    let m ← mesh7.neighbourhood Hash.id (NSet.ofList [24]) 2 4 (marks 49 [])
    let nb ← l.foldlM (fun (nb : Nbh Dbl) i => do
      let row ← mesh7.neighs i
      nb.update quad7.prio i row) (Nbh.new kind 2 (NSet.ofList (m.2.entries.map (·.1))))
    pure (nb.cands, nb.queues.map firsts))

/-- extended neighbourhood (tests/test_neighbourhood.cpp:122-244) -/
example : updates .extended [24] = some ([17, 23, 25, 31], []) := by decide +kernel
example : updates .extended [24, 31] = some ([17, 23, 25, 30, 32, 38], []) := by decide +kernel
example : updates .extended [24, 31, 38] = some ([17, 23, 25, 30, 32], []) := by decide +kernel

/-- pure front neighbourhood (tests/test_neighbourhood.cpp:245-395) -/
example : updates .pureFront [24] = some ([17, 23, 25, 31], [[17, 23, 25, 31]]) := by decide +kernel
example : updates .pureFront [24, 31] = some ([17, 23, 25, 30, 32, 38], [[30, 32, 38], [17, 23, 25]]) := by decide +kernel
example : updates .pureFront [24, 31, 38] = some ([17, 23, 25], [[], [30, 32], [17, 23, 25]]) := by decide +kernel

/-! ## Utilities -/

/-- distance to two sides of the square (tests/test_utils.cpp:49-86) -/
example : val (wallDistance quad7.row quad7.col [0, 1, 2, 3, 4, 5, 6, 7, 14, 21, 28, 35, 42]) =
    some ((List.range 49).map fun i => ((Min.min (i / 7) (i % 7) : Nat) : Int)) := by decide +kernel

/-- no wall (tests/test_utils.cpp:126-139) -/
example : (val (wallDistance quad7.row quad7.col [])).map (fun l => l.all fun x => decide (x < 0)) = some true := by
  decide +kernel

/-- compactness of the cells of a coarse cell, and its minimum -/
def compact (l : List Nat) : Option (List (Nat × Nat) × Nat) :=
  val (do
    let m ← (graphOf quad3.args).fcCompactness (NSet.ofList l)
    let k ← (graphOf quad3.args).minCompactness (NSet.ofList l)
    pure (m.entries, k))

/-- compactness (tests/test_utils.cpp:156-208) -/
example : compact [] = some ([], 0) := by decide +kernel
example : compact [1] = some ([(1, 0)], 0) := by decide +kernel
example : compact [6, 3, 0, 1, 2] = some ([(0, 2), (1, 2), (2, 1), (3, 2), (6, 1)], 1) := by decide +kernel
example : compact (List.range 9) =
    some ([(0, 2), (1, 3), (2, 2), (3, 3), (4, 4), (5, 3), (6, 2), (7, 3), (8, 2)], 2) := by decide +kernel

/-- ordered pairs (tests/test_utils.cpp:213-249).  The model has no set with the other comparator: its order is
checked. -/
example : ([(1, d 0 0), (1, d 0 0), (1, d 3 0), (0, d 3 0)].foldl (fun s x => pinsert x s) [] : List (Nat × Dbl)) =
    [(0, d 3 0), (1, d 3 0), (1, d 0 0)] := by decide +kernel
example : lessPair (1, d 0 0) (1, d 3 0) = true ∧ lessPair (1, d 3 0) (0, d 3 0) = true ∧
    lessPair (1, d 0 0) (1, d 0 0) = false := by decide +kernel

/-- cells with given numbers of neighbours (tests/test_utils.cpp:252-299) -/
example : val (filterCells quad4.row (quad4.bnd.map Int.ofNat) []) = some [] := by decide +kernel
example : val (filterCells quad4.row (quad4.bnd.map Int.ofNat) [-1, 0]) = some [] := by decide +kernel
example : val (filterCells quad4.row (quad4.bnd.map Int.ofNat) [3]) = some [] := by decide +kernel
example : val (filterCells quad4.row (quad4.bnd.map Int.ofNat) [4]) = some (List.range 16) := by decide +kernel
example : val (filterCells quad4.row (quad4.bnd.map Int.ofNat) [3, 4]) = some (List.range 16) := by decide +kernel

def coarse4 : Option (MeshData Dbl) :=
  val (buildCoarseGraph (-2 ^ 31) [0, 0, 1, 1, 0, 0, 1, 1, 2, 2, 3, 3, 2, 2, 3, 3]
    ⟨quad4.row, quad4.col, quad4.area, quad4.vol, quad4.cen, quad4.prio, (quad4.bnd.map Int.ofNat)⟩)

/-- coarse graph of the square (tests/test_utils.cpp:303-375) -/
example : coarse4.map (fun o => (o.adjIdx, o.adj)) = some ([0, 2, 4, 6, 8], [1, 2, 0, 3, 0, 3, 1, 2]) := by decide +kernel
example : coarse4.map (fun o => (o.weights, o.volumes)) = some (List.replicate 8 (d 2 0), List.replicate 4 (d 4 0)) := by
  decide +kernel
example : coarse4.map (fun o => o.centers) = some [[d 1 0, d 1 0], [d 3 0, d 1 0], [d 1 0, d 3 0], [d 3 0, d 3 0]] := by
  decide +kernel
example : coarse4.map (fun o => (o.priority, o.nBnd)) = some ([d 16 0, d 14 0, d 8 0, d 6 0], [2, 2, 2, 2]) := by
  decide +kernel

/-! ## Local graphs -/

/-- the local graph of tests/test_graph.cpp:23-38 -/
def marion : M (SGraph Dbl) :=
  SGraph.new 5 [0, 2, 4, 7, 9, 10] [1, 3, 0, 2, 1, 3, 4, 0, 2, 2] (List.replicate 10 (d 1 0)) (List.replicate 5 (d 1 0))
    [20, 30, 40, 50, 60]

/-- a node is added, the graph is connected (tests/test_graph.cpp:40-47); the number of cells is not updated -/
example : val (do
    let g ← marion
    let g ← g.insertNode [30, 20] 10 (d 1 0) [d 1 0, d 1 0]
    let r ← (VGraph.new g.nbC g.rowPtr g.colInd).check
    pure (r.1, g.mapping[5]?)) = some (true, some 10) := by decide +kernel

/-- A node is removed (tests/test_graph.cpp:39): the test compares nothing.  The model reports the increment of an
iterator that `erase` has invalidated. -/
example : val (do
    let g ← marion
    let g ← g.removeNode 50
    pure g.mapping) = none := by decide +kernel

/-! ## Deprecated containers -/

/-- the queue (tests/test_deprecated.cpp:33-56) -/
example : (Queue.calls (-1 : Int) [.push 0, .push 1, .push 2, .pop, .pop, .pop]).1.map (·.2) = [0, 1, 2] := by
  decide +kernel
example : [[], [.pop], [.pop, .pop], [.pop, .pop, .pop]].map
    (fun l => (Queue.calls (-1 : Int) ([.push 0, .push 1, .push 2] ++ l)).2.top (-1)) = [0, 1, 2, -1] := by decide +kernel

/-- pairs (tests/test_deprecated.cpp:79-124) -/
abbrev ltInt (x y : Int) : Bool := decide (x < y)
example : ppEq ((0, 1) : Int × Int) (0, 1) = true ∧ ppLt ltInt ltInt (3, 0) (0, 1) = true ∧
    ppLt ltInt ltInt (0, 0) (0, 1) = true := by decide +kernel
example : ([(3, 0), (2, -1), (1, 4), (0, 0), (0, 1)] : List (Int × Int)).Pairwise
    (fun x y => ppLt ltInt ltInt x y = true ∧ ppLt ltInt ltInt y x = false) := by decide +kernel

/-- the bimap; the values are numbers instead of pointers (tests/test_deprecated.cpp:127-225) -/
example : val (do
    let m ← Bimap.calls [.insert 0 10, .insert 1 11, .insert 2 12, .insert 3 13]
    let m' ← m.eraseB 2
    let b ← (m'.updateB 3 2).getB 2
    pure (m.lung, m'.lung, b)) = some (4, 3, 13) := by decide +kernel
example : val (do
    let m ← Bimap.calls [.insert 0 10]
    let b ← m.getB 0
    let m' ← m.eraseB 0
    pure (b, m'.empty)) = some (10, true) := by decide +kernel

/-- the tree (tests/test_deprecated.cpp:60-75, disabled in the repository) -/
example : val (do
    let t ← (Tree.new : Tree Nat).insertSon 2 1 1
    let t ← t.insertSon 2 3 1
    let t ← t.insertSon 2 4 1
    let t ← t.insertSon 4 2 0
    let t' ← t.deleteNode 4
    pure (t.sonc, t'.sonc)) = some (3, 2) := by decide +kernel

end CoMMA.Tests
