import Verif.Spec.Graph
import Verif.Spec.Pool
import Verif.Model.Neighbourhood
/-! # Vocabulary for the first-order neighbourhoods -/

namespace CoMMA

variable {W : Type} [Num W]

/-- `x` is an allowed cell, not among the cells `added`, and next to one of them -/
def InFront (rowPtr colInd : List Nat) (allowed : NSet) (added : List Nat) (x : Nat) : Prop :=
  x ∈ allowed ∧ x ∉ added ∧ ∃ y ∈ added, Adj rowPtr colInd y x

/-- a new neighbourhood updated with the given cells, one after the other, each with its
row in the graph -/
def nbhAfter (g : Graph W) (kind : NbhKind) (weights : List W) (allowed : NSet) (cells : List Nat) : M (Nbh W) :=
  cells.foldlM (fun nb x => do
    let row ← g.neighs x
    nb.update weights x row) (Nbh.new kind g.dim allowed)

/-- the first of the cells `xs`, in the order of the list, that is next to `x` has index `i` -/
def FirstNextTo (rowPtr colInd : List Nat) (xs : List Nat) (x i : Nat) : Prop :=
  (∃ y, xs[i]? = some y ∧ Adj rowPtr colInd y x) ∧
    ∀ (j y : Nat), j < i → xs[j]? = some y → ¬ Adj rowPtr colInd y x

/-- rank of the cell of index `i` among `m` cells taken alternately from the end and from the
beginning of a list: last, first, last but one, second, … -/
def frontRank (m i : Nat) : Nat := min (2 * (m - 1 - i)) (2 * i + 1)

/-- The candidates `l` for being added to the cells `xs`, in order.
Extended neighbourhood: all the allowed cells next to them; those next to an earlier cell of
`xs` first, then by priority.
Pure front: by priority; all the allowed cells next to `xs` as long as these are at most as many as the
dimension, then only those next to one of the cells: the first one, in the order of
`frontRank`, that is next to an allowed cell. -/
def Candidates (g : Graph W) (kind : NbhKind) (prio : List W) (allowed : NSet) (xs l : List Nat) : Prop :=
  match kind with
  | .extended =>
    (∀ x, x ∈ l ↔ InFront g.rowPtr g.colInd allowed xs x) ∧
    l.Pairwise (fun x y => ∃ i j, FirstNextTo g.rowPtr g.colInd xs x i ∧ FirstNextTo g.rowPtr g.colInd xs y j ∧
      (i < j ∨ (i = j ∧ Before prio x y)))
  | .pureFront =>
    PriorityOrdered prio l ∧
    (xs.length ≤ g.dim → ∀ x, x ∈ l ↔ InFront g.rowPtr g.colInd allowed xs x) ∧
    (g.dim < xs.length → (l = [] ∧ ∀ x, ¬ InFront g.rowPtr g.colInd allowed xs x) ∨
      (l ≠ [] ∧ ∃ i y, xs[i]? = some y ∧
        (∀ x, x ∈ l ↔ InFront g.rowPtr g.colInd allowed xs x ∧ Adj g.rowPtr g.colInd y x) ∧
        ∀ j z, xs[j]? = some z → (∃ x, InFront g.rowPtr g.colInd allowed xs x ∧ Adj g.rowPtr g.colInd z x) →
          frontRank xs.length i ≤ frontRank xs.length j))

end CoMMA
