import Verif.Spec.Lines
/-! # How a line grows: couplings, directions, choice of the next cell

Independent of the algorithm: the couplings and directions are read off the mesh, and the
choice of a cell is the best one for a relation. -/

namespace CoMMA

variable {W : Type} [Num W]

/-- position `k` of the storage belongs to the row of cell `i` and holds its neighbour `n` -/
def FaceAt (g : Graph W) (i k n : Nat) : Prop :=
  ∃ b e, g.rowPtr[i]? = some b ∧ g.rowPtr[i + 1]? = some e ∧ b ≤ k ∧ k < e ∧ g.colInd[k]? = some n

/-- sum of a list of numbers, from left to right -/
def sumUp (l : List W) : W := l.foldl Num.add (Num.ofNat 0)

/-- squared distance of two points -/
def dist2 (a b : List W) : W :=
  sumUp (List.zipWith (fun x y => Num.mul (Num.sub x y) (Num.sub x y)) a b)

/-- scalar product -/
def scalar (a b : List W) : W := sumUp (List.zipWith Num.mul a b)

/-- vector from `a` to `b` -/
def vecFrom (a b : List W) : List W := List.zipWith (fun x y => Num.sub y x) a b

/-- unit vector from `a` to `b` -/
def unitFrom (a b : List W) : List W :=
  (vecFrom a b).map (fun x => Num.mul x (Num.div (Num.ofNat 1) (Num.sqrt (scalar (vecFrom a b) (vecFrom a b)))))

/-- `w` is the coupling of `i` with its neighbour `n`: the weight of the face, or the inverse
of the squared distance of the centres -/
def CouplingOf (g : Graph W) (coupling : Coupling) (i n : Nat) (w : W) : Prop :=
  ∃ k, FaceAt g i k n ∧
    match coupling with
    | .maxWeight => g.values[k]? = some w
    | .minDistance => ∃ ci cn, g.centers[i]? = some ci ∧ g.centers[n]? = some cn ∧
        w = Num.div (Num.ofNat 1) (dist2 ci cn)
    | .unknown => False

/-- no coupling is negative -/
def NonnegCouplings (g : Graph W) (coupling : Coupling) : Prop :=
  ∀ i n w, CouplingOf g coupling i n w → Num.lt w (Num.ofNat 0) = false

/-- `m` is the strongest coupling of `i` (zero for a cell without neighbours) -/
def StrongestOf (g : Graph W) (coupling : Coupling) (i : Nat) (m : W) : Prop :=
  (∀ n w, CouplingOf g coupling i n w → Num.lt m w = false) ∧
    ((∃ n, CouplingOf g coupling i n m) ∨ m = Num.ofNat 0)

/-- the coupling `w` of `i` with `n` exceeds 0.9 times the strongest coupling of `i` -/
def StrongCoupling (g : Graph W) (coupling : Coupling) (i n : Nat) (w : W) : Prop :=
  CouplingOf g coupling i n w ∧ ∃ m, StrongestOf g coupling i m ∧ Num.lt (Num.mul Num.c090 m) w = true

/-- `d` is the direction of a step from `i` to `n` (unit vector from the centre of `n` to that
of `i`: the library uses this orientation everywhere) -/
def StepDir (g : Graph W) (i n : Nat) (d : List W) : Prop :=
  ∃ ci cn, g.centers[i]? = some ci ∧ g.centers[n]? = some cn ∧ d = unitFrom cn ci

/-- going from `i` to `n` continues the direction `d`: the cosine `c` of the angle is positive
and not below the limit -/
def Ahead (g : Graph W) (d : List W) (i n : Nat) (c : W) : Prop :=
  ∃ d', StepDir g i n d' ∧ c = scalar d d' ∧ Num.lt (Num.ofNat 0) c = true ∧ Num.lt (Num.abs c) Num.cdev = false

/-- candidates by coupling: free cells strongly coupled with `i`, with the coupling -/
def ByCoupling (g : Graph W) (coupling : Coupling) (free : Nat → Prop) (i n : Nat) (w : W) : Prop :=
  free n ∧ StrongCoupling g coupling i n w

/-- candidates by direction among the strongly coupled cells, with the cosine -/
def ByDirection (g : Graph W) (coupling : Coupling) (free : Nat → Prop) (d : List W) (i n : Nat) (c : W) : Prop :=
  free n ∧ (∃ w, StrongCoupling g coupling i n w) ∧ Ahead g d i n c

/-- candidates by direction among all neighbours, with the cosine -/
def AnyDirection (g : Graph W) (free : Nat → Prop) (d : List W) (i n : Nat) (c : W) : Prop :=
  free n ∧ Adj g.rowPtr g.colInd i n ∧ Ahead g d i n c

/-- `x` has the largest value of all candidates, and the smallest index among those -/
def BestOf (R : Nat → W → Prop) (x : Nat) : Prop :=
  ∃ w, R x w ∧ ∀ n w', R n w' → Num.lt w w' = false ∧ (Num.lt w' w = true ∨ x ≤ n)

/-- there is no candidate -/
def NoneOf (R : Nat → W → Prop) : Prop := ∀ n w, ¬ R n w

/-- the cell following `i` in a line, if any.  `d` is the direction of the line so far
(none for a line of one cell), `free` the cells that may be taken.  If the direction is not
to be kept: the most strongly coupled cell.  Otherwise the cell that is most straight ahead
among the strongly coupled ones or, failing that, among all neighbours. -/
inductive NextCell (g : Graph W) (coupling : Coupling) (force : Bool) (free : Nat → Prop) :
    Option (List W) → Nat → Option Nat → Prop where
  | strongest {d i x} : force = false ∨ d = none → BestOf (ByCoupling g coupling free i) x →
      NextCell g coupling force free d i (some x)
  | noStrong {d i} : force = false ∨ d = none → NoneOf (ByCoupling g coupling free i) →
      NextCell g coupling force free d i none
  | straight {d i x} : force = true → BestOf (ByDirection g coupling free d i) x →
      NextCell g coupling force free (some d) i (some x)
  | loose {d i x} : force = true → NoneOf (ByDirection g coupling free d i) → BestOf (AnyDirection g free d i) x →
      NextCell g coupling force free (some d) i (some x)
  | noWay {d i} : force = true → NoneOf (ByDirection g coupling free d i) → NoneOf (AnyDirection g free d i) →
      NextCell g coupling force free (some d) i none

/-- the cells appended after `i` until there is no candidate -/
inductive LineWalk (g : Graph W) (coupling : Coupling) (force : Bool) :
    (Nat → Prop) → Option (List W) → Nat → List Nat → Prop where
  | stop {free d i} : NextCell g coupling force free d i none → LineWalk g coupling force free d i []
  | step {free d i x d' rest} : NextCell g coupling force free d i (some x) → StepDir g i x d' →
      LineWalk g coupling force (fun n => free n ∧ n ≠ x) (some d') x rest →
      LineWalk g coupling force free d i (x :: rest)

/-- the line grown from the cell `p`: cells are appended from `p` on; if there are any, the
line is then continued from `p` on the other side, in the opposite direction -/
inductive LineFrom (g : Graph W) (coupling : Coupling) (force : Bool) (free : Nat → Prop) (p : Nat) : List Nat → Prop where
  | alone : LineWalk g coupling force (fun n => free n ∧ n ≠ p) none p [] → LineFrom g coupling force free p [p]
  | both {x front back d} : LineWalk g coupling force (fun n => free n ∧ n ≠ p) none p (x :: front) →
      StepDir g p x d →
      LineWalk g coupling force (fun n => (free n ∧ n ≠ p) ∧ n ∉ x :: front) (some (d.map Num.neg)) p back →
      LineFrom g coupling force free p (back.reverse ++ p :: x :: front)

/-- the lines grown from the listed cells, one after the other: a cell already on a line is
skipped, and lines of one cell are dropped -/
inductive LinesFrom (g : Graph W) (coupling : Coupling) (force : Bool) :
    (Nat → Prop) → List Nat → List (List Nat) → Prop where
  | done {free} : LinesFrom g coupling force free [] []
  | taken {free p rest ls} : ¬ free p → LinesFrom g coupling force free rest ls →
      LinesFrom g coupling force free (p :: rest) ls
  | single {free p rest ls} : free p → LineFrom g coupling force free p [p] →
      LinesFrom g coupling force (fun n => free n ∧ n ≠ p) rest ls → LinesFrom g coupling force free (p :: rest) ls
  | line {free p rest l ls} : free p → LineFrom g coupling force free p l → 2 ≤ l.length →
      LinesFrom g coupling force (fun n => free n ∧ n ∉ l) rest ls → LinesFrom g coupling force free (p :: rest) (l :: ls)

end CoMMA
