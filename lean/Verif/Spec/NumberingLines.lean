import Verif.Spec.Numbering
/-! # Specification: renumbering the cells of a call with lines -/

namespace CoMMA

variable {W : Type} [Num W]

/-- the neighbours of each cell are listed in the same order under both numberings -/
def SameRowOrder (σ : Nat → Nat) (a a' : Args W) : Prop :=
  ∀ i, rowOf a'.rowPtr a'.colInd (σ i) = (rowOf a.rowPtr a.colInd i).map σ

/-- the faces of each cell are listed in the same order under both numberings -/
def SameFaceOrder (σ : Nat → Nat) (a a' : Args W) : Prop :=
  ∀ i, facesOf (graphOf a') (σ i) = (facesOf (graphOf a) i).map (fun e => (σ e.1, e.2))

/-- `d` is a direction in which a line may be continued from `i`: that of a step from a neighbour
to `i`, or the opposite of that of a step from `i` to a neighbour -/
def Arrives (g : Graph W) (i : Nat) (d : List W) : Prop :=
  (∃ p, Adj g.rowPtr g.colInd p i ∧ StepDir g p i d) ∨
    ∃ x d0, Adj g.rowPtr g.colInd i x ∧ StepDir g i x d0 ∧ d = d0.map Num.neg

/-- neighbours of a cell that are coupled with it by the same amount, or that are equally straight
ahead if lines keep their direction, keep their order (nothing to ask if there are none) -/
structure KeepsLineTies (σ : Nat → Nat) (g : Graph W) (coupling : Coupling) (force : Bool) : Prop where
  coupling : ∀ i j k w, CouplingOf g coupling i j w → CouplingOf g coupling i k w → j < k → σ j < σ k
  direction : force = true → ∀ i j k d c, Adj g.rowPtr g.colInd i j → Adj g.rowPtr g.colInd i k → Arrives g i d →
    Ahead g d i j c → Ahead g d i k c → j < k → σ j < σ k

/-- numbers that compare equal are equal -/
def ExactEq (W : Type) [Num W] : Prop := ∀ x y : W, Num.eq x y = true → x = y

/-- the lines of the renumbered call: they are built, or the same lines are given under the new
numbers -/
def SameLines (σ : Nat → Nat) (a : Args W) (o o' : Outs) : Prop :=
  (a.buildLines = true ∧ KeepsLineTies σ (graphOf a) (meantCoupling a) a.forceDir) ∨
    (a.buildLines = false ∧ o'.linesIdx = o.linesIdx ∧ o'.lines = o.lines.map σ)

end CoMMA
