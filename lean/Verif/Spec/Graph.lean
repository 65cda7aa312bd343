/-! # Graphs in compressed row storage: adjacency, validity, walks

Independent of the model: only lists of numbers. -/

namespace CoMMA

/-- cell `j` appears in the row of cell `i` -/
def Adj (rowPtr colInd : List Nat) (i j : Nat) : Prop :=
  ∃ b e k, rowPtr[i]? = some b ∧ rowPtr[i + 1]? = some e ∧ b ≤ k ∧ k < e ∧ colInd[k]? = some j

/-- `rowPtr` and `colInd` describe a directed graph on the cells `0 .. n-1` -/
structure ValidCRS (n : Nat) (rowPtr colInd : List Nat) : Prop where
  rows : rowPtr.length = n + 1
  mono : ∀ i b e, rowPtr[i]? = some b → rowPtr[i + 1]? = some e → b ≤ e
  last : rowPtr[n]? = some colInd.length
  range : ∀ j ∈ colInd, j < n

/-- the graph is undirected -/
def SymmetricCRS (rowPtr colInd : List Nat) : Prop :=
  ∀ i j, Adj rowPtr colInd i j → Adj rowPtr colInd j i

/-- every neighbour appears once in the row of a cell -/
def UniqueRows (rowPtr colInd : List Nat) : Prop :=
  ∀ i b e, rowPtr[i]? = some b → rowPtr[i + 1]? = some e →
    ∀ k l j, b ≤ k → k < e → b ≤ l → l < e → colInd[k]? = some j → colInd[l]? = some j → k = l

/-- `j` is a neighbour of `i` that is not agglomerated -/
def FreeAdj (rowPtr colInd : List Nat) (agg : List Bool) (i j : Nat) : Prop :=
  Adj rowPtr colInd i j ∧ agg[j]? = some false

/-- walks of a given length along a relation -/
inductive Walk (R : Nat → Nat → Prop) : Nat → Nat → Nat → Prop where
  | nil (x : Nat) : Walk R 0 x x
  | step {k x y z : Nat} : Walk R k x y → R y z → Walk R (k + 1) x z

/-- `d` is the length of a shortest walk from the set `from_` to `x` -/
def IsDistance (R : Nat → Nat → Prop) (from_ : Nat → Prop) (x d : Nat) : Prop :=
  (∃ w, from_ w ∧ Walk R d w x) ∧ ∀ k w, from_ w → Walk R k w x → d ≤ k

/-- `x` can be reached from the set `from_` -/
def ReachableFrom (R : Nat → Nat → Prop) (from_ : Nat → Prop) (x : Nat) : Prop :=
  ∃ k w, from_ w ∧ Walk R k w x

/-- fewer than `m` cells are at a distance below `order - 1` -/
def FewBefore (R : Nat → Nat → Prop) (S : Nat → Prop) (order m : Nat) : Prop :=
  ∃ t : List Nat, t.Nodup ∧ (∀ x, x ∈ t ↔ ∃ k, IsDistance R S x k ∧ k + 1 < order) ∧ t.length < m

end CoMMA
