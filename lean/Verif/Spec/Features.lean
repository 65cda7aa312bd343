import Verif.Spec.Agglomeration
import Verif.Spec.CoarseGraph
import Verif.Spec.LineGrowth
import Verif.Spec.Subgraph
/-! # Features and aspect ratio of a set of cells

Independent of the algorithm: everything is computed from the whole set. -/

namespace CoMMA

variable {W : Type} [Num W]

/-- Exact arithmetic, as far as it is needed for sums and differences of weights (the product
is used with the constant 2 only); the sum of a range does not depend on the grouping. -/
structure ExactArith (W : Type) [Num W] : Prop extends CommAdd W where
  cancel : ∀ a b : W, Num.sub (Num.add a b) b = a
  two : ∀ a : W, Num.mul (Num.ofNat 2) a = Num.add a a
  reduce : ∀ l : List W, Num.reduce l = sumW l

/-- Two facts that also hold in floating point: squares of differences and products do not
depend on the order of the operands. -/
structure SymmArith (W : Type) [Num W] : Prop where
  sq : ∀ a b : W, Num.mul (Num.sub a b) (Num.sub a b) = Num.mul (Num.sub b a) (Num.sub b a)
  mul : ∀ a b : W, Num.mul a b = Num.mul b a

/-- sum of `f` over the cells of a set -/
def sumOver (l : List Nat) (f : Nat → W) : W := sumW (l.map f)

/-- the faces of a cell: neighbours and weights -/
def facesOf (g : Graph W) (i : Nat) : List (Nat × W) :=
  (rowOf g.rowPtr g.colInd i).zip (entriesOfRow g.rowPtr g.values i)

/-- weight of the faces from `i` to the cells that satisfy `p` -/
def weightTo (g : Graph W) (i : Nat) (p : Nat → Bool) : W :=
  sumW (((facesOf g i).filter (fun e => p e.1)).map (·.2))

/-- the same weight on both sides of each face -/
def SymWeights (g : Graph W) : Prop :=
  ∀ i j, weightTo g i (fun n => decide (n = j)) = weightTo g j (fun n => decide (n = i))

/-- volume of a cell -/
def volumeAt (g : Graph W) (i : Nat) : W := (g.volumes[i]?).getD Num.lmin

/-- center of a cell -/
def centerAt (g : Graph W) (i : Nat) : List W := (g.centers[i]?).getD []

/-- estimated weight of the boundary faces of a cell: their number times the mean weight of
the other faces -/
def boundaryEstimate (g : Graph W) (i : Nat) : W :=
  if (g.nBnd[i]?).getD 0 = 0 then Num.ofNat 0
  else Num.div (Num.mul (Num.ofNat ((g.nBnd[i]?).getD 0)) (sumW (entriesOfRow g.rowPtr g.values i)))
    (Num.ofNat (rowOf g.rowPtr g.colInd i).length)

/-- total volume of a set of cells -/
def measureOf (g : Graph W) (s : NSet) : W := sumOver s.elems (volumeAt g)

/-- number of pairs of neighbours in a set of cells -/
def internalPairs (g : Graph W) (s : NSet) : Nat :=
  (s.elems.map (fun i => s.elems.countP (fun j => decide (j < i) && (rowOf g.rowPtr g.colInd i).contains j))).sum

/-- weight of the faces between two cells of a set, each face taken once -/
def internalWeight (g : Graph W) (s : NSet) : W :=
  sumOver s.elems (fun i => weightTo g i (fun j => decide (j < i) && s.has j))

/-- weight of the faces that lead out of a set, with the estimate for the boundary -/
def externalWeight (g : Graph W) (s : NSet) : W :=
  sumOver s.elems (fun i => Num.add (weightTo g i (fun j => !s.has j)) (boundaryEstimate g i))

/-- number of faces of a cell that lead out of a set or lie on the boundary -/
def freeFaces (g : Graph W) (s : NSet) (i : Nat) : Nat :=
  (g.nBnd[i]?).getD 0 + (rowOf g.rowPtr g.colInd i).countP (fun j => !s.has j)

/-- coordinate `j` of the sum of the centers of a set, multiplied by the volumes -/
def momentOf (g : Graph W) (s : NSet) (j : Nat) : W :=
  sumOver s.elems (fun i => Num.mul (volumeAt g i) (((centerAt g i)[j]?).getD (Num.ofNat 0)))

/-- `m` is the largest number that satisfies `R`, but not less than `floor` -/
def LargestFrom (floor : W) (R : W → Prop) (m : W) : Prop :=
  (m = floor ∨ R m) ∧ Num.lt m floor = false ∧ ∀ d, R d → Num.lt m d = false

/-- `m` is the smallest number that satisfies `R`, but not more than `cap` -/
def SmallestFrom (cap : W) (R : W → Prop) (m : W) : Prop :=
  (m = cap ∨ R m) ∧ Num.lt cap m = false ∧ ∀ d, R d → Num.lt d m = false

/-- squared distance of the centers of two cells of a set -/
def PairDist (g : Graph W) (s : NSet) (d : W) : Prop :=
  ∃ i ∈ s, ∃ j ∈ s, i ≠ j ∧ d = dist2 (centerAt g i) (centerAt g j)

/-- What the features of a coarse cell must be, for a kind of aspect ratio: total volume and
number of internal faces for all kinds, and what the kind needs.  Sums of coordinates have
as many coordinates as the centers. -/
structure FeatsOf (g : Graph W) (kind : ARKind) (s : NSet) (f : Feats W) : Prop where
  measure : f.measure = measureOf g s
  nInt : f.nInt = internalPairs g s
  weights : kind.weights = true → f.int = internalWeight g s ∧ f.ext = externalWeight g s
  diam : kind.geom = true → LargestFrom Num.lmin (PairDist g s) f.sqDiam
  edge : kind.geom = true → SmallestFrom Num.lmax (PairDist g s) f.sqMin
  moments : kind.bary = true → ∀ i ∈ s, f.sum.length = (centerAt g i).length ∧
    ∀ j, j < f.sum.length → f.sum[j]? = some (momentOf g s j)
  facets : kind = .maxOverMinBary → ∀ i, f.facets.find? i = if i ∈ s then some (freeFaces g s i : Int) else none

/-- What is assumed for a kind of aspect ratio: a symmetric graph with data of the right sizes
and sums that do not depend on the order.  Kinds with weights: exact arithmetic, the same
weight on both sides of a face, no cell its own neighbour.  Kinds with lengths: totally
ordered numbers.  Kind with the number of free faces: no repeated neighbours, no cell its own
neighbour, the smallest length taken into account is a normal number, no square root is
larger than the largest number. -/
structure FeatInput (g : Graph W) (kind : ARKind) : Prop where
  crs : ValidCRS g.nbC g.rowPtr g.colInd
  sizes : MeshSizes g
  sym : SymmetricCRS g.rowPtr g.colInd
  add : CommAdd W
  weights : kind.weights = true → ExactArith W ∧ SymWeights g ∧ NoSelfLoop g.rowPtr g.colInd
  geom : kind.geom = true → LawfulLt W ∧ SymmArith W
  bary : kind.bary = true → LawfulLt W ∧ SymmArith W
  facets : kind = .maxOverMinBary → UniqueRows g.rowPtr g.colInd ∧ NoSelfLoop g.rowPtr g.colInd ∧
    Num.lt (Num.ctol : W) Num.lmin = false ∧ ∀ d : W, Num.lt Num.lmax (Num.sqrt d) = false

/-- the features of a coarse cell made of the given cells, in this order -/
def featsAfter (A : ARComp W (Feats W)) : List Nat → M (Feats W)
  | [] => pure A.default
  | x :: xs => do
    let f ← A.init x
    let r ← xs.foldlM (fun (a : Feats W × NSet) y => do
      let r ← A.compute y a.1 a.2
      pure (r.2.2, a.2.insert y)) (f, NSet.single x)
    pure r.1

/-- point with the moments of a set divided by its number of cells (the algorithm does not
divide by the volume, see DESIGN.md) -/
def baryOf (g : Graph W) (s : NSet) (D : Nat) : List W :=
  (List.range D).map (fun j => Num.mul (momentOf g s j) (Num.div (Num.ofNat 1) (Num.ofNat s.card)))

/-- squared distance of a cell of the set to the point -/
def BaryDist2 (g : Graph W) (s : NSet) (D : Nat) (d : W) : Prop :=
  ∃ i ∈ s, d = dist2 (baryOf g s D) (centerAt g i)

/-- distance to the point of a cell that has a face out of the set, if not negligible -/
def BaryDist (g : Graph W) (s : NSet) (D : Nat) (d : W) : Prop :=
  ∃ i ∈ s, 0 < freeFaces g s i ∧ d = Num.sqrt (dist2 (baryOf g s D) (centerAt g i)) ∧ Num.lt Num.ctol d = true

/-- square of a length divided by the volume in 2D, its cube divided by the squared volume in
3D -/
def overRadius (g : Graph W) (s : NSet) (x : W) : W :=
  if g.dim = 2 then Num.div x (measureOf g s)
  else Num.div (Num.mul (Num.mul x x) x) (Num.mul (measureOf g s) (measureOf g s))

/-- `r` is the aspect ratio of a set of at least two cells -/
def RatioOf (g : Graph W) (kind : ARKind) (s : NSet) (r : W) : Prop :=
  match kind with
  | .diamOverRadius => ∃ d, LargestFrom Num.lmin (PairDist g s) d ∧ r = overRadius g s d
  | .diamOverMinEdge => ∃ d e, LargestFrom Num.lmin (PairDist g s) d ∧ SmallestFrom Num.lmax (PairDist g s) e ∧
      r = if s.card = 2 then d else Num.div d e
  | .diameter => LargestFrom Num.lmin (PairDist g s) r
  | .overMeasure => r = Num.div (Num.ofNat 1) (measureOf g s)
  | .overInternal => r = Num.div (Num.ofNat 1) (internalWeight g s)
  | .perimOverRadius => r = if g.dim = 2 then Num.div (Num.mul (externalWeight g s) (externalWeight g s)) (measureOf g s)
      else Num.div (Num.mul (Num.mul (externalWeight g s) (externalWeight g s)) (externalWeight g s))
        (Num.mul (measureOf g s) (measureOf g s))
  | .external => r = externalWeight g s
  | .algebraic => r = Num.div (externalWeight g s) (measureOf g s)
  | .maxBaryOverRadius => ∃ D d, (∀ i ∈ s, (centerAt g i).length = D) ∧ (∀ x, BaryDist2 g s D x → Num.lt d x = false) ∧
      BaryDist2 g s D d ∧ r = overRadius g s d
  | .maxOverMinBary => ∃ D mn mx, (∀ i ∈ s, (centerAt g i).length = D) ∧ SmallestFrom Num.lmax (BaryDist g s D) mn ∧
      LargestFrom Num.lmin (BaryDist g s D) mx ∧ r = Num.div mx mn
  | .unknown => True

end CoMMA
