import Verif.Model.Anisotropic
import Verif.Spec.Agglomeration
/-! # Vocabulary for the anisotropic properties -/

namespace CoMMA

variable {W : Type} [Num W]

/-- `w` is the weight of a face between `i` and another cell -/
def FaceWeight (g : Graph W) (i : Nat) (w : W) : Prop :=
  ∃ b e k n, g.rowPtr[i]? = some b ∧ g.rowPtr[i + 1]? = some e ∧ b ≤ k ∧ k < e ∧
    g.colInd[k]? = some n ∧ n ≠ i ∧ g.values[k]? = some w

/-- `mn` and `mx` are the smallest and the largest weight of the faces of `i` (the largest
number and zero take part in the comparison, as bounds for a cell without faces) -/
def WeightRange (g : Graph W) (i : Nat) (mn mx : W) : Prop :=
  (∀ w, FaceWeight g i w → Num.lt w mn = false) ∧ (mn = Num.lmax ∨ FaceWeight g i mn) ∧
    Num.lt Num.lmax mn = false ∧
  (∀ w, FaceWeight g i w → Num.lt mx w = false) ∧ (mx = Num.ofNat 0 ∨ FaceWeight g i mx) ∧
    Num.lt mx (Num.ofNat 0) = false

/-- the cell is anisotropic for the threshold `thr`: the threshold is negative, or the ratio
of the weights (its square root in 3D) reaches it -/
def IsAnisotropic (g : Graph W) (thr : W) (i : Nat) : Prop :=
  Num.lt thr (Num.ofNat 0) = true ∨
    ∃ mn mx, WeightRange g i mn mx ∧
      Num.le thr (if g.dim = 2 then Num.div mx mn else Num.sqrt (Num.div mx mn)) = true

/-- the cell has the faces of a quadrilateral: four neighbours, or three and a boundary face -/
def QuadLike (g : Graph W) (i : Nat) : Prop :=
  (rowOf g.rowPtr g.colInd i).countP (fun j => decide (j ≠ i)) = 4 ∨
    ((rowOf g.rowPtr g.colInd i).countP (fun j => decide (j ≠ i)) = 3 ∧ ∃ b, g.nBnd[i]? = some b ∧ 0 < b)

/-- input of the construction of lines: known coupling, compliant cells of the mesh, and, if
every compliant cell is to be tagged by weight, no isolated compliant cell -/
structure LinesInput (g : Graph W) (prio : List W) (coupling : Coupling) (thr : W) : Prop where
  crs : ValidCRS g.nbC g.rowPtr g.colInd
  sizes : MeshSizes g
  prio : prio.length = g.nbC
  known : coupling ≠ .unknown
  compliant : ∀ i ∈ g.compliant, i < g.nbC
  isolated : Num.lt thr (Num.ofNat 0) = true → coupling = .maxWeight →
    ∀ i ∈ g.compliant, ∃ j, Adj g.rowPtr g.colInd i j

/-- the line is taken from its first cell `fr` rather than from its last cell `bk`: more
boundary faces, else larger priority, else smaller index -/
def FrontFirst (nBnd : List Nat) (prio : List W) (fr bk : Nat) : Prop :=
  ∃ bf bb wf wb, nBnd[fr]? = some bf ∧ nBnd[bk]? = some bb ∧ prio[fr]? = some wf ∧ prio[bk]? = some wb ∧
    (bb < bf ∨ (bf = bb ∧ (Num.lt wb wf = true ∨ (Num.eq wf wb = true ∧ fr < bk))))

/-- `l` is the line read from the end where its agglomeration starts -/
def Oriented (nBnd : List Nat) (prio : List W) (line l : List Nat) : Prop :=
  ∃ fr bk, line.head? = some fr ∧ line.getLast? = some bk ∧
    ((FrontFirst nBnd prio fr bk ∧ l = line) ∨ (¬ FrontFirst nBnd prio fr bk ∧ l = line.reverse))

/-- The last group of a line: three cells are left, or three more cells reach the limit. -/
def LastGroup (limit : Option Int) (taken left : Nat) : Prop :=
  left = 3 ∨ limit = some ((taken : Int) + 3)

/-- the limit allows two more cells -/
def RoomForTwo (limit : Option Int) (taken : Nat) : Prop :=
  ∀ m, limit = some m → (taken : Int) + 2 ≤ m

/-- How the cells left of a line, after `taken` cells, are cut into groups, one group after
another.  `Pairs odd limit taken left groups` -/
inductive Pairs (odd : Bool) (limit : Option Int) : Nat → List Nat → List (List Nat) → Prop where
  /-- the end of the line -/
  | done {n : Nat} : Pairs odd limit n [] []
  /-- the limit is reached -/
  | full {n : Nat} {l : List Nat} : ¬ RoomForTwo limit n → Pairs odd limit n l []
  /-- the last group, if odd lengths are allowed -/
  | three {n x y z : Nat} {l : List Nat} : RoomForTwo limit n → LastGroup limit n (l.length + 3) → odd = true →
      Pairs odd limit n (x :: y :: z :: l) [[x, y, z]]
  /-- the last group, if they are not -/
  | last {n x y z : Nat} {l : List Nat} : RoomForTwo limit n → LastGroup limit n (l.length + 3) → odd = false →
      Pairs odd limit n (x :: y :: z :: l) [[x, y]]
  /-- a group followed by others -/
  | two {n x y : Nat} {l : List Nat} {groups : List (List Nat)} : RoomForTwo limit n →
      ¬ LastGroup limit n (l.length + 2) → Pairs odd limit (n + 2) l groups →
      Pairs odd limit n (x :: y :: l) ([x, y] :: groups)

/-- The groups of cells made of a line, read from the chosen end: consecutive pairs, the last
group may have three cells if odd lengths are allowed.  Without limit everything is taken,
except the last cell if the length is odd and odd lengths are not allowed.  With limit `m`
the loop goes on as long as two more cells are allowed and available.  The last field says it all; the others are the
consequences that are easier to read. -/
structure Pairing (odd : Bool) (limit : Option Int) (l : List Nat) (groups : List (List Nat)) : Prop where
  front : groups.flatten <+: l
  size : ∀ grp ∈ groups, grp.length = 2 ∨ (grp.length = 3 ∧ odd = true)
  two : ∀ grp ∈ groups.dropLast, grp.length = 2
  all : limit = none → odd = true → groups.flatten = l
  even : limit = none → odd = false → groups.flatten = l.take (l.length / 2 * 2)
  far : ∀ m, limit = some m → l.length ≤ groups.flatten.length + 1 ∨ m < groups.flatten.length + 2
  exact : Pairs odd limit 0 l groups

/-- the index `k` denotes the coarse cell made of the cells of `grp` -/
def Denotes (fcToCc : List (Option Nat)) (grp : List Nat) (k : Nat) : Prop :=
  ∀ i : Nat, fcToCc[i]? = some (some k) ↔ i ∈ grp

/-- consecutive cells of the line are neighbours -/
def IsPath (rowPtr colInd : List Nat) (line : List Nat) : Prop :=
  ∀ (k x y : Nat), line[k]? = some x → line[k + 1]? = some y → Adj rowPtr colInd x y

end CoMMA
