import Verif.Model.TopLevel
import Verif.Model.Util
import Verif.Model.CoarseGraph
/-! # The functions called from Python (src/CoMMA.cpp)

Conversions between Python and C++ values are those of pybind11 and are not modelled: lists
are lists, enumerators are integers.  Vectors are copied by the conversion, so the lists
given by the caller never change. -/

namespace CoMMA

/-- `static_cast<CoMMASeedsPoolT>` (src/CoMMA.cpp:229, include/CoMMA/CoMMADefs.h:43-60).  The
underlying type of the enumeration is fixed, so any integer is a value of it. -/
def castOrder (i : Int) : SeedOrder :=
  if i = 0 then .boundary
  else if i = 1 then .neighbourhood
  else if i = 10 then .boundaryOnePoint
  else if i = 11 then .neighbourhoodOnePoint
  else .unknown

/-- `static_cast<CoMMAAspectRatioT>` (src/CoMMA.cpp:238, include/CoMMA/CoMMADefs.h:74-104) -/
def castAspect (i : Int) : ARKind :=
  if i = 0 then .diamOverRadius
  else if i = 1 then .diamOverMinEdge
  else if i = 2 then .diameter
  else if i = 3 then .overMeasure
  else if i = 4 then .overInternal
  else if i = 5 then .perimOverRadius
  else if i = 6 then .external
  else if i = 7 then .maxBaryOverRadius
  else if i = 8 then .maxOverMinBary
  else if i = 9 then .algebraic
  else .unknown

/-- `static_cast<CoMMACellCouplingT>` (src/CoMMA.cpp:241, include/CoMMA/CoMMADefs.h:107-112) -/
def castCoupling (i : Int) : Coupling :=
  if i = 0 then .maxWeight
  else if i = 1 then .minDistance
  else .unknown

/-- `static_cast<CoMMANeighbourhoodT>` (src/CoMMA.cpp:244) followed by the only test made on the
value (include/CoMMA/Agglomerator.h:910-914) -/
def castNbh (i : Int) : NbhKind := if i = 0 then .extended else .pureFront

variable {W : Type} [Num W]

/-- `agglomerate_one_level` of the Python module (src/CoMMA.cpp:178-278): the tuple returned or
the exception raised.  Default values are those of the registration. -/
def pyAgglomerate (P : Platform) (rowPtr colInd : List Nat) (values volumes : List W)
    (centers : List (List W)) (prio : List W) (compliant nBnd : List Nat)
    (buildLines isAniso oddLine : Bool) (thr : W) (order : Int) (linesIdx lines : List Nat)
    (correction : Bool) (dim goal min max : Int) (aspect : Int := 0) (singThresh : Int := 1)
    (maxCells : Option Int := none) (coupling : Int := 0) (forceDir : Bool := true) (fcIter : Int := 1)
    (nbh : Int := 0) : M (List Nat × List Nat × List Nat) := do
  let r := agglomeratePositional P
    rowPtr
    colInd
    values
    volumes
    centers
    prio
    compliant
    nBnd
    buildLines
    isAniso
    oddLine
    thr
    (castOrder order)
    ⟨[], linesIdx, lines⟩
    correction
    dim
    goal
    min
    max
    (castAspect aspect)
    singThresh
    maxCells
    (castCoupling coupling)
    forceDir
    fcIter
    (castNbh nbh)
  r.2
  pure (r.1.fcToCc, r.1.linesIdx, r.1.lines)

/-- `compute_neighbourhood_based_wall_distance` (src/CoMMA.cpp:280-297) -/
def pyWallDistance (neighIdxs neighs wall : List Nat) : M (List Int) :=
  wallDistance neighIdxs neighs wall

/-- `filter_cells_by_n_edges` (src/CoMMA.cpp:299-314) -/
def pyFilterCells (indices : List Nat) (nBnd allowed : List Int) : M (List Nat) :=
  filterCells indices nBnd allowed

/-- `build_coarse_graph` (src/CoMMA.cpp:316-366) -/
def pyBuildCoarseGraph (intMin : Int) (f2c adjIdx adj : List Nat) (weights volumes : List W)
    (centers : List (List W)) (priority : List W) (nBnd : List Int) :
    M (List Nat × List Nat × List W × List W × List (List W) × List W × List Int) := do
  let c ← buildCoarseGraph intMin f2c ⟨adjIdx, adj, weights, volumes, centers, priority, nBnd⟩
  pure (c.adjIdx, c.adj, c.weights, c.volumes, c.centers, c.priority, c.nBnd)

end CoMMA
