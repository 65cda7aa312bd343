import Verif.Spec.TopLevel
import Verif.Spec.Agglomeration
/-! # What correction with a threshold should do to the returned vector

`f` gives the coarse index of each fine cell; coarse cells with an index below `m` are those
made from lines; a coarse cell is small if it has at most `t` fine cells. -/

namespace CoMMA

variable {W : Type}

/-- largest size of a corrected coarse cell: the threshold, lowered to `min_card - 1` -/
def sizeLimit (a : Args W) : Nat := (min a.singThresh (a.minCard - 1)).toNat

/-- all neighbours of coarse cell `k` are in coarse cells made from lines -/
def Enclosed (rowPtr colInd f : List Nat) (m k : Nat) : Prop :=
  ∀ x y : Nat, f[x]? = some k → Adj rowPtr colInd x y → f[y]? = some k ∨ ∃ r, f[y]? = some r ∧ r < m

/-- every fine cell of coarse cell `k` has a neighbour in a coarse cell that is neither small
nor made from a line -/
def Absorbable (rowPtr colInd f : List Nat) (m t k : Nat) : Prop :=
  ∀ x : Nat, f[x]? = some k → ∃ y r, Adj rowPtr colInd x y ∧ f[y]? = some r ∧ m ≤ r ∧ t < f.count r

/-- every small coarse cell can be absorbed completely or not at all -/
def Surrounded (rowPtr colInd f : List Nat) (m t : Nat) : Prop :=
  ∀ k, m ≤ k → k ∈ f → f.count k ≤ t → Absorbable rowPtr colInd f m t k ∨ Enclosed rowPtr colInd f m k

/-- two fine cells of one coarse cell of `f` are in one coarse cell of `f'` -/
def IsCoarsening (f f' : List Nat) : Prop :=
  f'.length = f.length ∧ ∀ (i j : Nat) k, f[i]? = some k → f[j]? = some k → f'[i]? = f'[j]?

/-- what correction of `f` into `f'` guarantees -/
structure CorrectsSmall (rowPtr colInd : List Nat) (m t : Nat) (f f' : List Nat) : Prop where
  length : f'.length = f.length
  contiguous : Contiguous f'
  /-- coarse cells that are not small stay together and apart -/
  large : ∀ (i j : Nat) k l, f[i]? = some k → f[j]? = some l → t < f.count k → t < f.count l → (f'[i]? = f'[j]? ↔ k = l)
  /-- line cells do not change -/
  lines : ∀ (i : Nat) k, k < m → (f'[i]? = some k ↔ f[i]? = some k)
  connected : ∀ k, m ≤ k → ConnectedSet rowPtr colInd (fun i => f'[i]? = some k)
  /-- no small cell is left, except enclosed ones -/
  small : ∀ k, m ≤ k → k ∈ f' → t < f'.count k ∨ Enclosed rowPtr colInd f' m k
  /-- these keep their fine cells -/
  enclosed : ∀ k, m ≤ k → f.count k ≤ t → Enclosed rowPtr colInd f m k →
    ∀ i j : Nat, f[i]? = some k → (f'[j]? = f'[i]? ↔ f[j]? = some k)

end CoMMA
