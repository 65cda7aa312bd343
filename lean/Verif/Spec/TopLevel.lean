import Mathlib.Data.List.Forall2
import Verif.Model.TopLevel
import Verif.Spec.Lines
/-! # Vocabulary for the properties of `agglomerate_one_level` -/

namespace CoMMA

variable {W : Type} [Num W]

/-- A valid mesh with `n` cells: a symmetric graph in compressed row storage, one weight per
entry, one volume, center, priority and boundary count per cell, all centers with the same
number of coordinates.  Neighbours may be repeated in a row only if weights are totally
ordered by `<` (no NaN). -/
structure ValidMesh (a : Args W) (n : Nat) : Prop where
  pos : 0 < n
  crs : ValidCRS n a.rowPtr a.colInd
  sym : SymmetricCRS a.rowPtr a.colInd
  uniq : UniqueRows a.rowPtr a.colInd ∨ LawfulLt W
  values : a.values.length = a.colInd.length
  volumes : a.volumes.length = n
  centers : a.centers.length = n
  prio : a.prio.length = n
  bnd : a.nBnd.length = n
  coords : ∃ D, ∀ c ∈ a.centers, c.length = D

/-- Accepted parameters.  With one-point initialisation priorities must not be below the
smallest positive number (see C33) and indices must fit their type. -/
structure ValidParams (P : Platform) (a : Args W) : Prop where
  dim : a.dim = 2 ∨ a.dim = 3
  minCard : 1 < a.minCard
  goalCard : a.minCard ≤ a.goalCard
  maxCard : a.goalCard ≤ a.maxCard
  iter : 1 ≤ a.fcIter ∧ a.fcIter ≤ 4
  thresh : 1 ≤ a.singThresh
  order : a.order ≠ .unknown
  aspect : a.aspect ≠ .unknown
  onePoint : a.order = .boundaryOnePoint ∨ a.order = .neighbourhoodOnePoint →
    a.nBnd.length ≤ P.idxMax ∧ ∀ w ∈ a.prio, Num.lt w Num.lmin = false

/-- Correction is off, or only treats coarse cells of one fine cell (the threshold is also
lowered to `min_card - 1`). -/
def CorrectsSingletons (a : Args W) : Prop := a.correction = true → a.singThresh = 1 ∨ a.minCard = 2

/-- the indices in use are `0 .. N-1` for some `N` -/
def Contiguous (f : List Nat) : Prop := ∃ N, ∀ k, k ∈ f ↔ k < N

/-- offsets of consecutive blocks of data, the first one at `k` -/
def offsets : Nat → List (List Nat) → List Nat
  | k, [] => [k]
  | k, l :: r => k :: offsets (k + l.length) r

/-- `idx` and `data` hold the lines `ls` in compressed row storage -/
def Encodes (idx data : List Nat) (ls : List (List Nat)) : Prop := idx = offsets 0 ls ∧ data = ls.flatten

/-- the threshold meant by the caller: a value from 0 to 1 stands for its inverse -/
def meantThreshold (t : W) : W :=
  if Num.lt t (Num.ofNat 0) = false ∧ Num.lt (Num.ofNat 1) t = false then Num.div (Num.ofNat 1) t else t

/-- the coupling meant by the caller: an unknown one stands for the weights when lines are
built -/
def meantCoupling (a : Args W) : Coupling :=
  if a.coupling = .unknown ∧ a.buildLines = true then .maxWeight else a.coupling

/-- the limit of the number of cells of a line taken into account: when lines are built, a
limit that is not positive is ignored -/
def lineLimit (a : Args W) : Option Int := a.maxCells.filter (fun m => !a.buildLines || decide (0 < m))

/-- an anisotropic call that builds its lines: the compliant cells are cells of the mesh
and, if all of them are tagged by weight (negative threshold), none is isolated -/
structure BuildsLines (a : Args W) (n : Nat) : Prop where
  on : a.isAniso = true
  build : a.buildLines = true
  compliant : ∀ i ∈ a.compliant, i < n
  isolated : Num.lt (meantThreshold a.thr) (Num.ofNat 0) = true → meantCoupling a = .maxWeight →
    ∀ i ∈ a.compliant, ∃ j, Adj a.rowPtr a.colInd i j

/-- the call has no lines: anisotropy is off, or lines are to be given and there are none -/
def WithoutLines (a : Args W) (o : Outs) : Prop :=
  a.isAniso = false ∨ (a.buildLines = false ∧ (o.linesIdx.length < 2 ∨ o.lines = []))

/-- an anisotropic call with lines `ls` provided by the caller: disjoint lines of cells of
the mesh, at least one not empty -/
structure GivesLines (a : Args W) (o : Outs) (n : Nat) (ls : List (List Nat)) : Prop where
  on : a.isAniso = true
  build : a.buildLines = false
  enc : Encodes o.linesIdx o.lines ls
  data : ls.flatten ≠ []
  disjoint : ls.flatten.Nodup
  range : ∀ x ∈ ls.flatten, x < n

/-- the exported vectors hold the coarse lines; both are empty if there is no line -/
def Exports (out : Outs) (cls : List (List Nat)) : Prop :=
  (cls = [] ∧ out.linesIdx = [] ∧ out.lines = []) ∨ (cls ≠ [] ∧ Encodes out.linesIdx out.lines cls)

/-- The exported lines are the coarse lines of `fls`: each fine line is cut in groups of
consecutive cells, each group is the coarse cell with the exported index (boundary counts
above the dimension count as the dimension). -/
def CoarsensLines (a : Args W) (fls : List (List Nat)) (out : Outs) : Prop :=
  ∃ cls gss, Exports out cls ∧
    List.Forall₂ (fun line groups => ∃ l, Oriented (a.nBnd.map (fun b => min b a.dim.toNat)) a.prio line l ∧
      Pairing a.oddLine (lineLimit a) l groups) fls gss ∧
    List.Forall₂ (List.Forall₂ (fun grp k => ∀ i : Nat, out.fcToCc[i]? = some k ↔ i ∈ grp)) gss cls

/-- no line is one cell shorter than an odd limit (see C21) -/
def FitsLimit (a : Args W) (fls : List (List Nat)) : Prop :=
  ∀ l ∈ fls, ∀ m, lineLimit a = some m → ¬ (m % 2 = 1 ∧ 3 ≤ m ∧ (l.length : Int) + 1 = m)

end CoMMA
