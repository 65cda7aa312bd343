import Verif.Model.Graph
/-! # `build_coarse_graph` (include/CoMMA/Util.h:424-511) -/

namespace CoMMA

variable {W : Type} [Num W]

/-- graph and cell data, input and output of `build_coarse_graph`
(include/CoMMA/Util.h:424-441) -/
structure MeshData (W : Type) where
  adjIdx : List Nat
  adj : List Nat
  weights : List W
  volumes : List W
  centers : List (List W)
  priority : List W
  nBnd : List Int

/-- `*std::max_element` of indices (include/CoMMA/Util.h:442) -/
def maxIndex (l : List Nat) : M Nat :=
  match l with
  | [] => .error .ub
  | x :: xs => .ok (xs.foldl (fun m y => if m < y then y else m) x)

/-- `c2f`, `c_volumes` and `c_centers` while fine cells are gathered
(include/CoMMA/Util.h:450-467) -/
structure Gather (W : Type) where
  c2f : List NSet
  volumes : List W
  centers : List (List W)

/-- update of a center (include/CoMMA/Util.h:475-476) -/
def addCenter (v : W) (x : List W) (dim : Nat) (c : List W) : M (List W) :=
  (List.range dim).foldlM (fun c j => do
    let a ← rd c j
    let y ← rd x j
    wr c j (Num.add a (Num.mul v y))) c

/-- one fine cell (include/CoMMA/Util.h:469-476) -/
def gatherCell (g : MeshData W) (f2c : List Nat) (dim : Nat) (s : Gather W) (fc : Nat) : M (Gather W) := do
  let cc ← rd f2c fc
  let fs ← rd s.c2f cc
  let c2f ← wr s.c2f cc (fs.insert fc)
  let v ← rd g.volumes fc
  let cv ← rd s.volumes cc
  let volumes ← wr s.volumes cc (Num.add cv v)
  let x ← rd g.centers fc
  let c ← rd s.centers cc
  let c ← addCenter v x dim c
  let centers ← wr s.centers cc c
  pure ⟨c2f, volumes, centers⟩

/-- one neighbour of a fine cell (include/CoMMA/Util.h:493-499).  The weight is read at the
index of the neighbouring cell, as in the code. -/
def addNeigh (g : MeshData W) (f2c : List Nat) (fcs : NSet) (m : NMap W) (n : Nat) : M (NMap W) :=
  if fcs.has n then pure m
  else do
    let cc ← rd f2c n
    let w ← rd g.weights n
    pure (m.insert cc (Num.add ((m.find? cc).getD (Num.ofNat 0)) w))

/-- boundary faces, priority and neighbours of a coarse cell, one fine cell
(include/CoMMA/Util.h:488-500) -/
def addFine (g : MeshData W) (f2c : List Nat) (fcs : NSet) (s : Int × W × NMap W) (fc : Nat) :
    M (Int × W × NMap W) := do
  let b ← rd g.nBnd fc
  let p ← rd g.priority fc
  let row ← rowM g.adjIdx g.adj fc
  let m ← row.foldlM (addNeigh g f2c fcs) s.2.2
  pure (if s.1 < b then b else s.1, if Num.lt s.2.1 p then p else s.2.1, m)

/-- one coarse cell (include/CoMMA/Util.h:479-509); `intMin` is the smallest `IntT` -/
def coarseCell (g : MeshData W) (f2c : List Nat) (intMin : Int) (gt : Gather W) (out : MeshData W) (cc : Nat) :
    M (MeshData W) := do
  let fcs ← rd gt.c2f cc
  let c ← rd gt.centers cc
  let s ← fcs.elems.foldlM (addFine g f2c fcs) (intMin, Num.lmin, NMap.empty)
  let last ← rd out.adjIdx (out.adjIdx.length - 1)
  pure {
    adjIdx := out.adjIdx ++ [last + s.2.2.size]
    adj := out.adj ++ s.2.2.keys
    weights := out.weights ++ s.2.2.entries.map Prod.snd
    volumes := out.volumes
    centers := out.centers ++ [c.map (fun x => Num.mul x (Num.div (Num.ofNat 1) (Num.ofNat fcs.card)))]
    priority := out.priority ++ [s.2.1]
    nBnd := out.nBnd ++ [s.1] }

/-- `build_coarse_graph` (include/CoMMA/Util.h:424-511): the output vectors.  They are
filled coarse cell after coarse cell; the sizes given in advance do not matter. -/
def buildCoarseGraph (intMin : Int) (f2c : List Nat) (g : MeshData W) : M (MeshData W) := do
  let mx ← maxIndex f2c
  let c0 ← rd g.centers 0
  let gt ← (List.range f2c.length).foldlM (gatherCell g f2c c0.length)
    ⟨List.replicate (mx + 1) NSet.empty, List.replicate (mx + 1) (Num.ofNat 0),
      List.replicate (mx + 1) (List.replicate c0.length (Num.ofNat 0))⟩
  (List.range (mx + 1)).foldlM (coarseCell g f2c intMin gt) ⟨[0], [], [], gt.volumes, [], [], []⟩

end CoMMA
