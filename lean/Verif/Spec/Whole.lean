import Verif.Spec.SameData
import Verif.Spec.TopLevel
/-! # Meshes described by whole numbers

Volumes, weights, centers and priorities are whole numbers (in a suitable unit), as for Cartesian
grids.  The numbers need not be small: what has to fit into the 53 binary digits of a double is
what the type of aspect ratio makes of the data of one coarse cell. -/

namespace CoMMA

variable {W : Type}

/-- the same call on the same data, as numbers of another type -/
def Args.convert (φ : Int → W) (a : Args Int) : Args W where
  rowPtr := a.rowPtr
  colInd := a.colInd
  values := a.values.map φ
  volumes := a.volumes.map φ
  centers := a.centers.map (fun c => c.map φ)
  prio := a.prio.map φ
  compliant := a.compliant
  nBnd := a.nBnd
  buildLines := a.buildLines
  isAniso := a.isAniso
  oddLine := a.oddLine
  thr := φ a.thr
  order := a.order
  correction := a.correction
  dim := a.dim
  goalCard := a.goalCard
  minCard := a.minCard
  maxCard := a.maxCard
  aspect := a.aspect
  singThresh := a.singThresh
  maxCells := a.maxCells
  coupling := a.coupling
  forceDir := a.forceDir
  fcIter := a.fcIter
  nbh := a.nbh

/-- the weights of the faces of a cell -/
def faceWeights (rowPtr : List Nat) (values : List Int) (i : Nat) : List Int :=
  match rowPtr[i]?, rowPtr[i + 1]? with
  | some b, some e => (values.drop b).take (e - b)
  | _, _ => []

/-- Volumes are between 1 and `V`.  If the aspect ratio uses distances: cells have different
centers, and those of neighbouring cells differ by at most `K` in each coordinate.  If it uses weights:
these are positive, those of a cell sum up to `S` at most, and the mean weight times the number of
boundary faces is a whole number. -/
structure WholeData (a : Args Int) (n V S K : Nat) : Prop where
  prio : ∀ q ∈ a.prio, q.natAbs ≤ 2 ^ 53
  volumes : ∀ v ∈ a.volumes, 1 ≤ v ∧ v ≤ V
  coords : a.aspect.usesCenters → ∀ c ∈ a.centers, c.length ≤ 3 ∧ ∀ x ∈ c, x.natAbs ≤ 2 ^ 53
  distinct : a.aspect.usesCenters → a.centers.Nodup
  near : a.aspect.usesCenters → ∀ i j ci cj, Adj a.rowPtr a.colInd i j → a.centers[i]? = some ci → a.centers[j]? = some cj →
    ∀ (k : Nat) x y, ci[k]? = some x → cj[k]? = some y → (x - y).natAbs ≤ K
  weights : a.aspect.usesWeights → ∀ w ∈ a.values, 1 ≤ w
  sums : a.aspect.usesWeights → ∀ i < n, (faceWeights a.rowPtr a.values i).sum ≤ S
  mean : a.aspect.usesWeights → ∀ i b, a.nBnd[i]? = some b → 0 < b → faceWeights a.rowPtr a.values i ≠ [] ∧
    ((faceWeights a.rowPtr a.values i).length : Int) ∣ (min b a.dim.toNat : Nat) * (faceWeights a.rowPtr a.values i).sum

/-- squared distance of two points -/
def wholeDist2 (c d : List Int) : Int := (List.zipWith (fun x y => (x - y) * (x - y)) c d).sum

/-- scalar product of the vectors from the point `o` to the points `c` and `d` -/
def wholeDot (o c d : List Int) : Int :=
  (List.zipWith (fun x y => x * y) (List.zipWith (fun x y => y - x) o c) (List.zipWith (fun x y => y - x) o d)).sum

/-- Centers of neighbours are different.  Seen from the center of a cell, those of two neighbours are at an angle
whose cosine is not between 0.93969262 and 0.93969263 nor between the opposite values (the limit is between these), and is at
most 3/4 (41 degrees at least). -/
structure ClearTurns (rowPtr colInd : List Nat) (centers : List (List Int)) : Prop where
  coords : ∀ c ∈ centers, c.length ≤ 3 ∧ ∀ x ∈ c, x.natAbs ≤ 2 ^ 53
  apart : ∀ i j ci cj, Adj rowPtr colInd i j → centers[i]? = some ci → centers[j]? = some cj → ci ≠ cj
  turn : ∀ i j m ci cj cm, Adj rowPtr colInd i j → Adj rowPtr colInd i m → centers[i]? = some ci → centers[j]? = some cj →
    centers[m]? = some cm →
    10 ^ 16 * wholeDot ci cj cm ^ 2 ≤ 93969262 ^ 2 * (wholeDist2 ci cj * wholeDist2 ci cm) ∨
      93969263 ^ 2 * (wholeDist2 ci cj * wholeDist2 ci cm) ≤ 10 ^ 16 * wholeDot ci cj cm ^ 2
  spread : ∀ i j m ci cj cm, Adj rowPtr colInd i j → Adj rowPtr colInd i m → j ≠ m → centers[i]? = some ci → centers[j]? = some cj →
    centers[m]? = some cm →
    wholeDot ci cj cm ≤ 0 ∨ 4 ^ 2 * wholeDot ci cj cm ^ 2 ≤ 3 ^ 2 * (wholeDist2 ci cj * wholeDist2 ci cm)

/-- The segment between the centers of two neighbours is parallel to an axis, and a cell has at most one
neighbour on each of its sides. -/
structure Cartesian (rowPtr colInd : List Nat) (centers : List (List Int)) : Prop where
  coords : ∀ c ∈ centers, c.length ≤ 3 ∧ ∀ x ∈ c, x.natAbs ≤ 2 ^ 53
  axis : ∀ i j ci cj, Adj rowPtr colInd i j → centers[i]? = some ci → centers[j]? = some cj →
    ∃ k : Nat, (∃ x y, ci[k]? = some x ∧ cj[k]? = some y ∧ x ≠ y) ∧ ∀ l : Nat, l ≠ k → ci[l]? = cj[l]?
  single : ∀ i j m ci cj cm, Adj rowPtr colInd i j → Adj rowPtr colInd i m → centers[i]? = some ci → centers[j]? = some cj →
    centers[m]? = some cm → ∀ (k : Nat) x y z, ci[k]? = some x → cj[k]? = some y → cm[k]? = some z →
    (x < y ∧ x < z) ∨ (y < x ∧ z < x) → j = m

/-- Centers of neighbours are different, not far apart, and no two neighbours of a cell are at squared
distances in the ratio of 9 to 10 from it. -/
structure ClearDistances (rowPtr colInd : List Nat) (centers : List (List Int)) : Prop where
  coords : ∀ c ∈ centers, c.length ≤ 3 ∧ ∀ x ∈ c, x.natAbs ≤ 2 ^ 53
  apart : ∀ i j ci cj, Adj rowPtr colInd i j → centers[i]? = some ci → centers[j]? = some cj →
    ci ≠ cj ∧ ∀ (k : Nat) x y, ci[k]? = some x → cj[k]? = some y → (x - y).natAbs ≤ 2 ^ 21
  ratio : ∀ i j m ci cj cm, Adj rowPtr colInd i j → Adj rowPtr colInd i m → centers[i]? = some ci → centers[j]? = some cj →
    centers[m]? = some cm → 10 * wholeDist2 ci cj ≠ 9 * wholeDist2 ci cm

/-- The weights and the threshold are whole numbers, and the threshold is not zero.  If lines are coupled by distance,
no two distances are in the ratio that decides whether a coupling is strong; if they are to keep their direction, it is
clear which neighbours are straight on (as on Cartesian meshes). -/
structure WholeLines (a : Args Int) : Prop where
  coupling : a.coupling = .minDistance → ClearDistances a.rowPtr a.colInd a.centers
  turns : a.forceDir = true → ClearTurns a.rowPtr a.colInd a.centers
  threshold : a.thr ≠ 0 ∧ a.thr.natAbs ≤ 2 ^ 24
  weights : ∀ w ∈ a.values, 1 ≤ w ∧ a.thr * a.thr * w ≤ 2 ^ 48

/-- The numbers that make up an aspect ratio of a coarse cell of at most `N` cells are small: volumes
are at most `N * V`, squared distances at most `3 * (N * K) ^ 2`, sums of weights at most `N * S` inside
and `6 * N * S` outside. -/
def RatioFits (dim : Int) (kind : ARKind) (N V S K : Nat) : Prop :=
  (0 < V ∧ 0 < S ∧ 0 < K ∧ N * V ≤ 2 ^ 51) ∧
  match kind with
  | .diamOverRadius =>
    if dim = 2 then 3 * (N * K) ^ 2 * (N * V) ≤ 2 ^ 51 else (3 * (N * K) ^ 2) ^ 3 * (N * V) ^ 2 ≤ 2 ^ 51
  | .diamOverMinEdge => (3 * (N * K) ^ 2) ^ 2 ≤ 2 ^ 51
  | .diameter => 3 * (N * K) ^ 2 ≤ 2 ^ 51
  | .overMeasure => True
  | .overInternal => 6 * N * S ≤ 2 ^ 51
  | .perimOverRadius =>
    if dim = 2 then (6 * N * S) ^ 2 * (N * V) ≤ 2 ^ 51 else (6 * N * S) ^ 3 * (N * V) ^ 2 ≤ 2 ^ 51
  | .external => 6 * N * S ≤ 2 ^ 51
  | .algebraic => 6 * N * S * (N * V) ≤ 2 ^ 51
  | .maxBaryOverRadius | .maxOverMinBary | .unknown => False

end CoMMA
