import Verif.Spec.Graph
import Verif.Spec.Pool
import Verif.Model.Isotropic
/-! # Vocabulary for the agglomeration properties -/

namespace CoMMA

/-- the row of a cell as a list -/
def rowOf (rowPtr colInd : List Nat) (i : Nat) : List Nat :=
  match rowPtr[i]?, rowPtr[i + 1]? with
  | some b, some e => (colInd.drop b).take (e - b)
  | _, _ => []

/-- number of cells of the set `s` that appear in a row -/
def nbShared (row : List Nat) (s : NSet) : Nat := s.elems.countP (fun y => row.contains y)

/-- the cells satisfying `s` induce a connected subgraph -/
def ConnectedSet (rowPtr colInd : List Nat) (s : Nat → Prop) : Prop :=
  ∀ x y, s x → s y → ∃ k, Walk (fun a b => Adj rowPtr colInd a b ∧ s a ∧ s b) k x y

/-- no cell is its own neighbour -/
def NoSelfLoop (rowPtr colInd : List Nat) : Prop := ∀ i, ¬ Adj rowPtr colInd i i

/-- `k` is the smallest number of neighbours inside `s` of a cell of `s` (0 if `s` has at
most one cell) -/
def IsCompactness (rowPtr colInd : List Nat) (s : NSet) (k : Nat) : Prop :=
  (s.card ≤ 1 → k = 0) ∧
  (1 < s.card → (∃ x ∈ s, nbShared (rowOf rowPtr colInd x) s = k) ∧
    ∀ x ∈ s, k ≤ nbShared (rowOf rowPtr colInd x) s)

/-- what is needed of an aspect-ratio computer: with some invariant `Inv` on the features
of a coarse cell, it returns for every new cell, and the number of shared faces is the
number of neighbours of that cell in the coarse cell -/
structure ARSafe {W F : Type} [Num W] (g : Graph W) (ar : ARComp W F) (Inv : NSet → F → Prop) : Prop where
  init : ∀ i, i < g.nbC → Ok (ar.init i) (Inv (NSet.single i))
  compute : ∀ cc f i, Inv cc f → (∀ x ∈ cc, x < g.nbC) → i < g.nbC → i ∉ cc →
    Ok (ar.compute i f cc) (fun r => r.1 = nbShared (rowOf g.rowPtr g.colInd i) cc ∧ Inv (cc.insert i) r.2.2)

/-- Sizes of the geometric data: one volume, one center and one boundary count per cell, one
weight per entry of the graph, all centers with the same number of coordinates. -/
structure MeshSizes {W : Type} (g : Graph W) : Prop where
  bnd : g.nBnd.length = g.nbC
  volumes : g.volumes.length = g.nbC
  centers : g.centers.length = g.nbC
  values : g.values.length = g.colInd.length
  coords : ∃ D, ∀ c ∈ g.centers, c.length = D

/-- Valid input of an isotropic agglomeration: a symmetric graph in compressed row storage,
vectors of the right sizes, boundary counts already clamped, accepted cardinalities.
Neighbours may be repeated in a row if priorities are totally ordered; cells may be their
own neighbours. -/
structure IsoInput {W F : Type} [Num W] (E : IsoEnv W F) : Prop where
  crs : ValidCRS E.g.nbC E.g.rowPtr E.g.colInd
  sym : SymmetricCRS E.g.rowPtr E.g.colInd
  uniq : UniqueRows E.g.rowPtr E.g.colInd ∨ LawfulLt W
  dim : E.g.dim = 2 ∨ E.g.dim = 3
  bnd : E.g.nBnd.length = E.g.nbC
  pool : PoolInput E.pool E.g.nbC
  prio : PrioritiesOk E.pool
  minCard : 1 < E.minCard
  goalCard : E.minCard ≤ E.goalCard
  maxCard : E.goalCard ≤ E.maxCard
  ar : ∃ Inv, ARSafe E.g E.ar Inv

end CoMMA
