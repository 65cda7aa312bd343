import Verif.Model.Growth
/-! # Aspect-ratio computers (include/CoMMA/ARComputer.h) -/

namespace CoMMA

variable {W : Type} [Num W]

/-- `squared_euclidean_distance` (include/CoMMA/Util.h:155-170); reading past the end of the
second point is undefined behaviour -/
def sqDist (a b : List W) : M W :=
  (List.range a.length).foldlM (fun acc i => do
    let x ← rd a i
    let y ← rd b i
    pure (Num.add acc (Num.mul (Num.sub x y) (Num.sub x y)))) (Num.ofNat 0)

/-- `get_total_n_faces` (include/CoMMA/Dual_Graph.h:643-645) -/
def Graph.totalFaces (g : Graph W) (i : Nat) : M Nat := do
  let b ← rd g.nBnd i
  let n ← g.nbNeighs i
  pure (b + n)

/-- `estimated_boundary_weight` (include/CoMMA/Dual_Graph.h:661-685) -/
def Graph.boundaryWeight (g : Graph W) (i : Nat) : M W := do
  let b ← rd g.nBnd i
  if b = 0 then pure (Num.ofNat 0)
  else do
    let ws ← g.weights i
    let n ← g.nbNeighs i
    pure (Num.div (Num.mul (Num.ofNat b) (Num.reduce ws)) (Num.ofNat n))

/-- `estimated_total_weight` (include/CoMMA/Dual_Graph.h:693-697) -/
def Graph.totalWeight (g : Graph W) (i : Nat) : M W := do
  let ws ← g.weights i
  let b ← g.boundaryWeight i
  pure (Num.add (Num.reduce ws) b)

/-- Data members of `CellFeatures` (include/CoMMA/ARComputer.h:37-66) -/
structure Feats (W : Type) where
  measure : W
  ext : W
  int : W
  nInt : Nat
  sqMin : W
  sqDiam : W
  sum : List W
  facets : NMap Int

/-- default constructor (include/CoMMA/ARComputer.h:82-99) -/
def Feats.default : Feats W :=
  ⟨Num.lmin, Num.ofNat 0, Num.ofNat 0, 0, Num.mul Num.lmax Num.lmax, Num.mul Num.lmin Num.lmin, [], NMap.empty⟩

/-- features of a single cell (include/CoMMA/ARComputer.h:103-118) -/
def Feats.init (g : Graph W) (i : Nat) : M (Feats W) := do
  let v ← rd g.volumes i
  let e ← g.totalWeight i
  let n ← g.totalFaces i
  let c ← rd g.centers i
  pure ⟨v, e, Num.ofNat 0, 0, Num.lmax, Num.lmin, c.map (fun x => Num.mul x v), NMap.empty.insert i n⟩

/-- `compute_shared_faces` (include/CoMMA/ARComputer.h:218-233) -/
def sharedFaces (g : Graph W) (i : Nat) (cc : NSet) : M (W × NSet) := do
  let row ← g.neighs i
  let ws ← g.weights i
  pure ((row.zip ws).foldl (fun a e =>
    if e.1 ≠ i ∧ cc.has e.1 = true then (Num.add a.1 e.2, a.2.insert e.1) else a) (Num.ofNat 0, NSet.empty))

/-- `new_feats._external_facets` in `update_basic_features<_, true>`
(include/CoMMA/ARComputer.h:317-324); the loop decrements distinct keys, so its order cannot
matter -/
def updateFacets (g : Graph W) (i : Nat) (facets : NMap Int) (shared : NSet) : M (NMap Int) := do
  let m ← shared.elems.foldlM (fun (m : NMap Int) x => do
    let v ← m.at! x
    pure (m.insert x (v - 1))) facets
  let n ← g.totalFaces i
  pure (m.insert i ((n : Int) - shared.card))

/-- algebraic part of `update_basic_features` (include/CoMMA/ARComputer.h:312-316): new
external and internal weights -/
def updateWeights (g : Graph W) (i : Nat) (f : Feats W) (sw : W) : M (W × W) := do
  let t ← g.totalWeight i
  pure (Num.sub (Num.add f.ext t) (Num.mul (Num.ofNat 2) sw), Num.add f.int sw)

/-- the conditional update of the weights (include/CoMMA/ARComputer.h:312-316) -/
def withWeights (cw : Bool) (g : Graph W) (i : Nat) (f : Feats W) (sw : W) (d : Feats W) : M (Feats W) :=
  if cw then do
    let w ← updateWeights g i f sw
    pure { d with ext := w.1, int := w.2 }
  else pure d

/-- `update_basic_features<compute_weights, update_facets>`
(include/CoMMA/ARComputer.h:298-325), starting from default features: number of shared
faces and features -/
def updateBasic (cw uf : Bool) (g : Graph W) (i : Nat) (f : Feats W) (cc : NSet) : M (Nat × Feats W) := do
  let v ← rd g.volumes i
  let s ← sharedFaces g i cc
  let d ← withWeights cw g i f s.1
    { Feats.default with measure := Num.add f.measure v, nInt := f.nInt + s.2.card }
  if uf then do
    let m ← updateFacets g i f.facets s.2
    pure (s.2.card, { d with facets := m })
  else pure (s.2.card, d)

/-- `update_approximated_geometric_features` (include/CoMMA/ARComputer.h:242-259): new
`_sq_diam` and `_sq_min_edge` -/
def updateGeom (g : Graph W) (h : Hash) (i : Nat) (f : Feats W) (cc : NSet) : M (W × W) := do
  let c ← rd g.centers i
  (h.ord 4 cc.elems).foldlM (fun a x => do
    let cx ← rd g.centers x
    let dist ← sqDist c cx
    pure (if Num.lt a.1 dist then dist else a.1, if Num.lt dist a.2 then dist else a.2)) (f.sqDiam, f.sqMin)

/-- `compute_and_update_barycenter` (include/CoMMA/ARComputer.h:269-284): new
`_sum_centers` and barycenter -/
def updateBary (g : Graph W) (i : Nat) (f : Feats W) (cc : NSet) : M (List W × List W) := do
  let c ← rd g.centers i
  let v ← rd g.volumes i
  let ov := Num.div (Num.ofNat 1) (Num.ofNat (cc.card + 1))
  (List.range c.length).foldlM (fun a j => do
    let x ← rd c j
    let s ← rd a.1 j
    let s' := Num.add s (Num.mul v x)
    let sum ← wr a.1 j s'
    pure (sum, a.2 ++ [Num.mul s' ov])) (f.sum, [])

/-- `x_over_radius<dim>` for `dim` 2 and 3 (include/CoMMA/ARComputer.h:336-349) -/
def xOverRadius (dim : Nat) (sqx : W) (f : Feats W) : W :=
  if dim = 2 then Num.div sqx f.measure
  else Num.div (Num.mul (Num.mul sqx sqx) sqx) (Num.mul f.measure f.measure)

/-- the aspect-ratio types (include/CoMMA/CoMMADefs.h:73-100); `unknown` stands for any
other value of the enumeration -/
inductive ARKind where
  | diamOverRadius | diamOverMinEdge | diameter | overMeasure | overInternal
  | perimOverRadius | external | maxBaryOverRadius | maxOverMinBary | algebraic
  | unknown
  deriving DecidableEq, Repr

/-- loop of `ARMaxBaryDistanceOverRadius` (include/CoMMA/ARComputer.h:810-818) -/
def maxBary (g : Graph W) (h : Hash) (bary : List W) (i : Nat) (cc : NSet) : M W := do
  let c ← rd g.centers i
  let d ← sqDist bary c
  (h.ord 4 cc.elems).foldlM (fun m x => do
    let cx ← rd g.centers x
    let dist ← sqDist bary cx
    pure (if Num.lt m dist then dist else m)) d

/-- first cell in `ARMaxOverMinBaryDistance` (include/CoMMA/ARComputer.h:876-889): minimum
and maximum distance -/
def minMaxFirst (g : Graph W) (bary : List W) (facets : NMap Int) (i : Nat) : M (W × W) :=
  if 0 < (facets.find? i).getD 0 then do
    let c ← rd g.centers i
    let d ← sqDist bary c
    pure (if Num.lt Num.ctol (Num.sqrt d) then (Num.sqrt d, Num.sqrt d) else (Num.lmax, Num.lmin))
  else pure (Num.lmax, Num.lmin)

/-- loop of `ARMaxOverMinBaryDistance` (include/CoMMA/ARComputer.h:890-901).  `operator[]`
would insert a zero for an absent cell; cells of the coarse cell are never absent. -/
def minMaxBary (g : Graph W) (h : Hash) (bary : List W) (facets : NMap Int) (i : Nat) (cc : NSet) : M (W × W) := do
  let s ← minMaxFirst g bary facets i
  (h.ord 4 cc.elems).foldlM (fun a x =>
    if 0 < (facets.find? x).getD 0 then do
      let cx ← rd g.centers x
      let d ← sqDist bary cx
      let dist := Num.sqrt d
      pure (if Num.lt Num.ctol dist then
        (if Num.lt dist a.1 then dist else a.1, if Num.lt a.2 dist then dist else a.2) else a)
    else pure a) s

/-- whether algebraic features are computed (include/CoMMA/ARComputer.h:567, 697, 748) -/
def ARKind.weights : ARKind → Bool
  | .overInternal | .perimOverRadius | .external | .algebraic => true
  | _ => false

/-- whether geometric features are computed (include/CoMMA/ARComputer.h:399, 504, 643) -/
def ARKind.geom : ARKind → Bool
  | .diamOverRadius | .diamOverMinEdge | .diameter => true
  | _ => false

/-- whether the barycenter is computed (include/CoMMA/ARComputer.h:808, 876) -/
def ARKind.bary : ARKind → Bool
  | .maxBaryOverRadius | .maxOverMinBary => true
  | _ => false

/-- aspect ratio from the new features for the computers without barycenter
(include/CoMMA/ARComputer.h:403, 453, 509-511, 582-597, 646, 698, 749) -/
def arValue (dim : Nat) (kind : ARKind) (cc : NSet) (f : Feats W) : W :=
  match kind with
  | .diamOverRadius => xOverRadius dim f.sqDiam f
  | .diamOverMinEdge => if cc.card = 1 then f.sqDiam else Num.div f.sqDiam f.sqMin
  | .diameter => f.sqDiam
  | .overMeasure => Num.div (Num.ofNat 1) f.measure
  | .overInternal => Num.div (Num.ofNat 1) f.int
  | .perimOverRadius =>
    if dim = 2 then Num.div (Num.mul f.ext f.ext) f.measure
    else Num.div (Num.mul (Num.mul f.ext f.ext) f.ext) (Num.mul f.measure f.measure)
  | .external => f.ext
  | _ => Num.div f.ext f.measure

/-- `compute_and_update_features` of the computers with a barycenter
(include/CoMMA/ARComputer.h:794-820, 861-902) -/
def arBary (g : Graph W) (h : Hash) (kind : ARKind) (i : Nat) (f : Feats W) (cc : NSet) : M (Nat × W × Feats W) := do
  let b ← updateBasic false (decide (kind = .maxOverMinBary)) g i f cc
  let y ← updateBary g i f cc
  let nf : Feats W := { b.2 with sum := y.1 }
  if kind = .maxOverMinBary then do
    let m ← minMaxBary g h y.2 nf.facets i cc
    pure (b.1, Num.div m.2 m.1, nf)
  else do
    let m ← maxBary g h y.2 i cc
    pure (b.1, xOverRadius g.dim m nf, nf)

/-- `compute_and_update_features` of the computers with the diameter
(include/CoMMA/ARComputer.h:387-406, 492-514, 630-648) -/
def arGeom (g : Graph W) (h : Hash) (kind : ARKind) (i : Nat) (f : Feats W) (cc : NSet) : M (Nat × W × Feats W) := do
  let b ← updateBasic false false g i f cc
  let y ← updateGeom g h i f cc
  let nf : Feats W := { b.2 with sqDiam := y.1, sqMin := y.2 }
  pure (b.1, arValue g.dim kind cc nf, nf)

/-- `compute_and_update_features` of the remaining computers
(include/CoMMA/ARComputer.h:441-456, 555-570, 685-700, 736-751) -/
def arPlain (g : Graph W) (kind : ARKind) (i : Nat) (f : Feats W) (cc : NSet) : M (Nat × W × Feats W) := do
  let b ← updateBasic kind.weights false g i f cc
  pure (b.1, arValue g.dim kind cc b.2, b.2)

/-- the aspect-ratio computer of a given type (include/CoMMA/Agglomerator.h:915-1010).  The
dimension is the one of the agglomerator, also kept by the graph. -/
def arOf (g : Graph W) (h : Hash) (kind : ARKind) : ARComp W (Feats W) where
  init := Feats.init g
  default := Feats.default
  compute i f cc :=
    if kind.bary then arBary g h kind i f cc
    else if kind.geom then arGeom g h kind i f cc
    else arPlain g kind i f cc

end CoMMA
