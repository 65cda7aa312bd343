import Verif.Model.Anisotropic
import Verif.Model.Isotropic
import Verif.Model.Correction
/-! # `agglomerate_one_level` (include/CoMMA/CoMMA.h, include/CoMMA/Args.h) -/

namespace CoMMA

/-- `CoMMASeedsPoolT` (include/CoMMA/CoMMADefs.h:43-60); `unknown` is any other value of
the enumeration's underlying type -/
inductive SeedOrder where
  | boundary | neighbourhood | boundaryOnePoint | neighbourhoodOnePoint | unknown
  deriving DecidableEq, Repr

/-- Input arguments of `agglomerate_one_level` (include/CoMMA/CoMMA.h:137-176).  Indices and
boundary counts are natural numbers (negative values are not representable); parameters
that are tested by the function are integers. -/
structure Args (W : Type) where
  rowPtr : List Nat
  colInd : List Nat
  values : List W
  volumes : List W
  centers : List (List W)
  prio : List W
  compliant : List Nat
  nBnd : List Nat
  buildLines : Bool
  isAniso : Bool
  oddLine : Bool
  thr : W
  order : SeedOrder
  correction : Bool
  dim : Int
  goalCard : Int
  minCard : Int
  maxCard : Int
  aspect : ARKind
  singThresh : Int
  maxCells : Option Int
  coupling : Coupling
  forceDir : Bool
  fcIter : Int
  nbh : NbhKind

/-- Output arguments (include/CoMMA/CoMMA.h:160-163); the last two are also read. -/
structure Outs where
  fcToCc : List Nat
  linesIdx : List Nat
  lines : List Nat
  deriving DecidableEq, Repr

/-- Not part of the arguments: largest values of `CoMMAIntType` and `CoMMAIndexType`
(config_files/CoMMAConfig.h.in:30, 42), and
the iteration order of unordered containers. -/
structure Platform where
  intMax : Int
  idxMax : Nat
  hash : Hash

variable {W : Type} [Num W]

/-- `throw std::invalid_argument` unless `b`, as at include/CoMMA/CoMMA.h:198-205 -/
def checkArg (b : Bool) : M Unit := if b then .ok () else .error .invalidArgument

/-- checks on the dimension, the cardinalities, the number of iterations and the graph
(include/CoMMA/CoMMA.h:198-226) -/
def checkBasic (a : Args W) : M Unit := do
  checkArg (decide (a.dim = 2) || decide (a.dim = 3))
  checkArg (!(decide (a.minCard ≤ 1) || decide (a.goalCard ≤ 1) || decide (a.maxCard ≤ 1)))
  checkArg (decide (a.minCard ≤ a.goalCard) && decide (a.goalCard ≤ a.maxCard))
  checkArg (!decide (a.fcIter < 1))
  checkArg (!decide (4 < a.fcIter))
  checkArg (!(a.rowPtr.isEmpty || decide (a.rowPtr.getLast? ≠ some a.colInd.length)
    || decide (a.rowPtr.getLast? ≠ some a.values.length)))

/-- whether anisotropy stays on, once the provided lines have been looked at
(include/CoMMA/CoMMA.h:227-228, 251-259) -/
def anisoOn (a : Args W) (o : Outs) : Bool :=
  a.isAniso && (a.buildLines || !(decide (o.linesIdx.length < 2) || o.lines.isEmpty))

/-- check on the provided lines (include/CoMMA/CoMMA.h:260-266) -/
def checkLines (a : Args W) (o : Outs) : M Unit :=
  if anisoOn a o && !a.buildLines then checkArg (decide (o.linesIdx.getLast? = some o.lines.length))
  else pure ()

/-- maximum number of cells in a line (include/CoMMA/CoMMA.h:234-239) -/
def effMaxCells (a : Args W) : Option Int :=
  match a.maxCells with
  | none => none
  | some m => if a.buildLines && decide (m ≤ 0) then none else some m

/-- coupling (include/CoMMA/CoMMA.h:240-250) -/
def effCoupling (a : Args W) : Coupling :=
  match a.coupling with
  | .unknown => if a.buildLines then .maxWeight else .unknown
  | c => c

/-- threshold for singular cells (include/CoMMA/CoMMA.h:269-282) -/
def effThresh (a : Args W) : Int := if a.minCard ≤ a.singThresh then a.minCard - 1 else a.singThresh

/-- boundary faces (include/CoMMA/CoMMA.h:288-300) -/
def clampBnd (dim : Nat) (l : List Nat) : List Nat := l.map (fun n => if dim < n then dim else n)

/-- choice of the seeds pool (include/CoMMA/CoMMA.h:302-333) -/
def poolOf (P : Platform) (a : Args W) : M (PoolCfg W) :=
  match a.order with
  | .boundary => .ok ⟨.boundary, false, a.prio, clampBnd a.dim.toNat a.nBnd, P.idxMax⟩
  | .neighbourhood => .ok ⟨.neighbourhood, false, a.prio, clampBnd a.dim.toNat a.nBnd, P.idxMax⟩
  | .boundaryOnePoint => .ok ⟨.boundary, true, a.prio, clampBnd a.dim.toNat a.nBnd, P.idxMax⟩
  | .neighbourhoodOnePoint => .ok ⟨.neighbourhood, true, a.prio, clampBnd a.dim.toNat a.nBnd, P.idxMax⟩
  | .unknown => .error .invalidArgument

/-- sanity checks and seeds pool (include/CoMMA/CoMMA.h:194-333) -/
def checkAll (P : Platform) (a : Args W) (o : Outs) : M (PoolCfg W) := do
  checkBasic a
  checkLines a o
  checkArg (!decide (a.singThresh ≤ 0))
  poolOf P a

/-- the dual graph (include/CoMMA/CoMMA.h:286, 335-349) -/
def graphOf (a : Args W) : Graph W where
  nbC := a.rowPtr.length - 1
  rowPtr := a.rowPtr
  colInd := a.colInd
  values := a.values
  volumes := a.volumes
  centers := a.centers
  nBnd := clampBnd a.dim.toNat a.nBnd
  dim := a.dim.toNat
  compliant := NSet.ofList a.compliant

/-- the lines of the anisotropic agglomerator: built or provided
(include/CoMMA/Agglomerator.h:245-284) -/
def fineLines (P : Platform) (a : Args W) (o : Outs) : M (List (List Nat)) :=
  if a.buildLines then buildLines (graphOf a) P.hash a.prio (effCoupling a) a.forceDir (effThreshold a.thr)
  else givenLines o.linesIdx o.lines

/-- anisotropic phase (include/CoMMA/CoMMA.h:351-400): container, pool and, if anisotropy is
on, the exported offsets and lines.  The `range_error` of the base constructor
(include/CoMMA/Agglomerator.h:79-81) cannot be reached: the dimension has been checked. -/
def anisoPhase (P : Platform) (a : Args W) (o : Outs) (c : PoolCfg W) : M (Cont × Pool × List Nat × List Nat) :=
  if anisoOn a o then do
    let l ← fineLines P a o
    let r ← agglomLines (graphOf a) c ⟨a.oddLine, effMaxCells a⟩ l
      (Cont.new (graphOf a).nbC (effThresh a).toNat) Pool.new
    pure (r.1, r.2.1, exportLines r.2.2)
  else do
    let p ← Pool.new.initialize c
    pure (Cont.new (graphOf a).nbC (effThresh a).toNat, p, o.linesIdx, o.lines)

/-- one cardinality of `set_agglomeration_parameter` (include/CoMMA/Agglomerator.h:1025-1067);
zero stands for a default, which `agglomerate_one_level` never asks for -/
def cardOr (d2 d3 : Nat) (dim card : Int) : Nat :=
  if card = 0 then (if dim = 2 then d2 else d3) else card.toNat

/-- the isotropic agglomerator (include/CoMMA/CoMMA.h:402-429) -/
def isoEnvOf (P : Platform) (a : Args W) (c : PoolCfg W) : IsoEnv W (Feats W) where
  g := graphOf a
  h := P.hash
  pool := c
  ar := arOf (graphOf a) P.hash a.aspect
  nbh := a.nbh
  fcIter := a.fcIter.toNat
  goalCard := cardOr 4 8 a.dim a.goalCard
  minCard := cardOr 3 6 a.dim a.minCard
  maxCard := cardOr 5 10 a.dim a.maxCard
  intMax := P.intMax

/-- optional correction (include/CoMMA/Agglomerator.h:1132-1135) -/
def correctIf (P : Platform) (a : Args W) (c : Cont) : M Cont :=
  if a.correction then c.correct (graphOf a) P.hash else pure c

/-- isotropic phase (include/CoMMA/CoMMA.h:402-433); an unknown aspect ratio is refused by
the constructor (include/CoMMA/Agglomerator.h:1007-1009) -/
def isoPhase (P : Platform) (a : Args W) (c : PoolCfg W) (k : Cont) (p : Pool) : M Cont := do
  checkArg (decide (a.aspect ≠ .unknown))
  let r ← isoRun (isoEnvOf P a c) k p
  correctIf P a r.1

/-- the last loop (include/CoMMA/CoMMA.h:434-443) -/
def fillFcToCc (k : Cont) : M (List Nat) := k.fc2cc.mapM valueM

/-- what the last loop has written when `value()` throws (include/CoMMA/CoMMA.h:436-443) -/
def filledBefore (k : Cont) : List Nat := (k.fc2cc.takeWhile Option.isSome).filterMap id

/-- The two phases and the final copy (include/CoMMA/CoMMA.h:351-443): values of the output arguments when the function
returns or throws, and how it ends. -/
def runPhases (P : Platform) (a : Args W) (o : Outs) (c : PoolCfg W) : Outs × M Unit :=
  match anisoPhase P a o c with
  | .error e => (o, .error e)
  | .ok (k, p, idx, lines) =>
    match isoPhase P a c k p with
    | .error e => (⟨o.fcToCc, idx, lines⟩, .error e)
    | .ok k' =>
      match fillFcToCc k' with
      | .error e => (⟨filledBefore k', idx, lines⟩, .error e)
      | .ok f => (⟨f, idx, lines⟩, .ok ())

/-- `agglomerate_one_level` (include/CoMMA/CoMMA.h:137-444): values of the output arguments
when it returns or throws, and how it ends -/
def agglomerateOneLevel (P : Platform) (a : Args W) (o : Outs) : Outs × M Unit :=
  match checkAll P a o with
  | .error e => (o, .error e)
  | .ok c => runPhases P a o c

/-! ## Overload with structures -/

/-- `GraphArgs` (include/CoMMA/Args.h:34-86) -/
structure GraphArgs (W : Type) where
  connectivityIndices : List Nat
  connectivity : List Nat
  connectivityWeights : List W
  volumes : List W
  centers : List (List W)
  priorityWeights : List W
  nBndFaces : List Nat
  dimension : Int

/-- `AgglomerationArgs` (include/CoMMA/Args.h:99-171); the default values are those of the
constructor -/
structure AgglomerationArgs where
  goalCard : Int
  minCard : Int
  maxCard : Int
  correction : Bool
  seedOrderingType : SeedOrder
  aspectRatio : ARKind := .diamOverRadius
  singularCardThresh : Int := 1
  fcChoiceIter : Int := 1
  neighbourhoodType : NbhKind := .extended

/-- `AnisotropicArgs` (include/CoMMA/Args.h:184-239); the default values are those of the
constructor -/
structure AnisotropicArgs (W : Type) [Num W] where
  isAnisotropic : Bool
  anisotropicCompliantCells : List Nat
  buildLines : Bool := true
  oddLineLength : Bool := true
  thresholdAnisotropy : W := Num.ofNat 4
  maxCellsInLine : Option Int := none
  cellCoupling : Coupling := .maxWeight
  lineDirection : Bool := true

/-- The positional parameter list of `agglomerate_one_level`, in the order of the source and
with its default values (include/CoMMA/CoMMA.h:137-176) -/
def agglomeratePositional (P : Platform) (rowPtr colInd : List Nat) (values volumes : List W)
    (centers : List (List W)) (prio : List W) (compliant nBnd : List Nat)
    (buildLines isAniso oddLine : Bool) (thr : W) (order : SeedOrder) (outs : Outs)
    (correction : Bool) (dim goal min max : Int) (aspect : ARKind := .diamOverRadius) (singThresh : Int := 1)
    (maxCells : Option Int := none) (coupling : Coupling := .maxWeight) (forceDir : Bool := true) (fcIter : Int := 1)
    (nbh : NbhKind := .extended) :
    Outs × M Unit :=
  agglomerateOneLevel P
    { rowPtr := rowPtr, colInd := colInd, values := values, volumes := volumes, centers := centers,
      prio := prio, compliant := compliant, nBnd := nBnd, buildLines := buildLines, isAniso := isAniso,
      oddLine := oddLine, thr := thr, order := order, correction := correction, dim := dim,
      goalCard := goal, minCard := min, maxCard := max, aspect := aspect, singThresh := singThresh,
      maxCells := maxCells, coupling := coupling, forceDir := forceDir, fcIter := fcIter, nbh := nbh } outs

/-- the overload (include/CoMMA/CoMMA.h:475-513): the arguments of the call are those of the
source, in the same order -/
def agglomerateStructured (P : Platform) (graph : GraphArgs W) (agglo : AgglomerationArgs)
    (aniso : AnisotropicArgs W) (outs : Outs) : Outs × M Unit :=
  agglomeratePositional P
    graph.connectivityIndices
    graph.connectivity
    graph.connectivityWeights
    graph.volumes
    graph.centers
    graph.priorityWeights
    aniso.anisotropicCompliantCells
    graph.nBndFaces
    aniso.buildLines
    aniso.isAnisotropic
    aniso.oddLineLength
    aniso.thresholdAnisotropy
    agglo.seedOrderingType
    outs
    agglo.correction
    graph.dimension
    agglo.goalCard
    agglo.minCard
    agglo.maxCard
    agglo.aspectRatio
    agglo.singularCardThresh
    aniso.maxCellsInLine
    aniso.cellCoupling
    aniso.lineDirection
    agglo.fcChoiceIter
    agglo.neighbourhoodType

end CoMMA
