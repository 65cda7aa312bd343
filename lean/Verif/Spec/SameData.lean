import Verif.Model.TopLevel
/-! # Specification: which of the data of a call its result depends on

Relations between the data of two calls that are the same otherwise, and, for each
aspect-ratio type, the data it is documented to use (include/CoMMA/CoMMADefs.h:73-100). -/

namespace CoMMA

variable {W : Type} [Num W]

/-- the priorities compare alike: same number of weights, and any two cells are in the same
order, or both equal, in the two lists -/
def ComparesAlike (p p' : List W) : Prop :=
  p'.length = p.length ∧
    ∀ i j : Nat, ∀ x y x' y' : W, p[i]? = some x → p[j]? = some y → p'[i]? = some x' → p'[j]? = some y' →
      Num.lt x' y' = Num.lt x y ∧ Num.eq x' y' = Num.eq x y

/-- every center moved by the same vector -/
def Moved (t : List W) (cs cs' : List (List W)) : Prop :=
  cs' = cs.map (fun c => List.zipWith Num.add c t) ∧ ∀ c ∈ cs, c.length = t.length

/-- the vectors between centers are exactly the same after the move: true in exact
arithmetic, or whenever the additions happen to be exact -/
def MovesExactly (W : Type) [Num W] : Prop :=
  ∀ x y t : W, Num.sub (Num.add x t) (Num.add y t) = Num.sub x y

/-- the type of aspect ratio depends on the positions of the centers only by the distances
between cells -/
def ARKind.byDistances (kind : ARKind) : Prop :=
  kind ≠ .maxBaryOverRadius ∧ kind ≠ .maxOverMinBary

/-- the type of aspect ratio uses the positions of the centers -/
def ARKind.usesCenters (kind : ARKind) : Prop :=
  kind = .diamOverRadius ∨ kind = .diamOverMinEdge ∨ kind = .diameter ∨ kind = .maxBaryOverRadius ∨ kind = .maxOverMinBary

/-- the type of aspect ratio uses the weights of the faces -/
def ARKind.usesWeights (kind : ARKind) : Prop :=
  kind = .overInternal ∨ kind = .perimOverRadius ∨ kind = .external ∨ kind = .algebraic

/-- the type of aspect ratio uses the volumes -/
def ARKind.usesVolumes (kind : ARKind) : Prop :=
  kind = .diamOverRadius ∨ kind = .overMeasure ∨ kind = .perimOverRadius ∨ kind = .algebraic ∨ kind = .maxBaryOverRadius ∨
    kind = .maxOverMinBary

end CoMMA
