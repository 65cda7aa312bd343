import Verif.Model.TopLevel
/-! # Values of the enumerators, as a Python caller sees them -/

namespace CoMMA

/-- `CoMMA.SeedsPool` -/
def enumOrder : List (Int × SeedOrder) :=
  [(0, .boundary), (1, .neighbourhood), (10, .boundaryOnePoint), (11, .neighbourhoodOnePoint)]

/-- `CoMMA.AR` -/
def enumAspect : List (Int × ARKind) :=
  [(0, .diamOverRadius), (1, .diamOverMinEdge), (2, .diameter), (3, .overMeasure), (4, .overInternal),
   (5, .perimOverRadius), (6, .external), (7, .maxBaryOverRadius), (8, .maxOverMinBary), (9, .algebraic)]

/-- `CoMMA.CellCoupling` -/
def enumCoupling : List (Int × Coupling) := [(0, .maxWeight), (1, .minDistance)]

/-- `CoMMA.Neighbourhood` -/
def enumNbh : List (Int × NbhKind) := [(0, .extended), (1, .pureFront)]

/-- what a Python caller sees of a C++ call: the three vectors, or the exception -/
def seenFromPython (r : Outs × M Unit) : M (List Nat × List Nat × List Nat) :=
  match r.2 with
  | .ok () => .ok (r.1.fcToCc, r.1.linesIdx, r.1.lines)
  | .error e => .error e

end CoMMA
