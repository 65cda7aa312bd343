import Verif.Spec.Agglomeration
/-! # What correction of single cells does to the returned vector

`f` is a vector giving the coarse index of each fine cell; coarse cells with an index below
`m` are those made from lines. -/

namespace CoMMA

/-- the fine cells of coarse cell `k` -/
def fcsOf (f : List Nat) (k : Nat) : NSet :=
  NSet.ofList ((List.range f.length).filter (fun i => decide (f[i]? = some k)))

/-- number of faces between the fine cell `x` and coarse cell `k` -/
def facesTo (rowPtr colInd f : List Nat) (x k : Nat) : Nat :=
  (rowOf rowPtr colInd x).countP (fun y => decide (f[y]? = some k))

/-- `r` may receive the fine cell `x`: another coarse cell, not made from a line, with a
common face -/
def Receiver (rowPtr colInd f : List Nat) (m x r : Nat) : Prop :=
  f[x]? ≠ some r ∧ m ≤ r ∧ ∃ y, Adj rowPtr colInd x y ∧ f[y]? = some r

/-- the compactness of `r` increases if it receives `x` -/
def Gains (rowPtr colInd f : List Nat) (x r : Nat) : Prop :=
  ∃ a b, IsCompactness rowPtr colInd (fcsOf f r) a ∧ IsCompactness rowPtr colInd ((fcsOf f r).insert x) b ∧ a < b

/-- `r` has more faces in common with `x` than `s`, or as many and fewer cells, or as many
cells and a smaller index (or `r = s`) -/
def Closer (rowPtr colInd f : List Nat) (x r s : Nat) : Prop :=
  facesTo rowPtr colInd f x s < facesTo rowPtr colInd f x r ∨
    (facesTo rowPtr colInd f x r = facesTo rowPtr colInd f x s ∧
      (f.count r < f.count s ∨ (f.count r = f.count s ∧ r ≤ s)))

/-- `r` is the best receiver of `x`: receivers whose compactness increases come first, then
the closer ones -/
def BestReceiver (rowPtr colInd f : List Nat) (m x r : Nat) : Prop :=
  Receiver rowPtr colInd f m x r ∧ ∀ s, Receiver rowPtr colInd f m x s →
    (Gains rowPtr colInd f x r ∧ ¬ Gains rowPtr colInd f x s) ∨
      ((Gains rowPtr colInd f x r ↔ Gains rowPtr colInd f x s) ∧ Closer rowPtr colInd f x r s)

/-- the listed coarse cells are treated one after the other: one that still has a single fine
cell gives it to its best receiver, if there is any -/
inductive Merges (rowPtr colInd : List Nat) (m : Nat) : List Nat → List Nat → List Nat → Prop where
  | done {f} : Merges rowPtr colInd m [] f f
  | large {k ks f f'} : 1 < f.count k → Merges rowPtr colInd m ks f f' → Merges rowPtr colInd m (k :: ks) f f'
  | alone {k ks x f f'} : f.count k = 1 → f[x]? = some k → (∀ r, ¬ Receiver rowPtr colInd f m x r) →
      Merges rowPtr colInd m ks f f' → Merges rowPtr colInd m (k :: ks) f f'
  | merged {k ks x r f f'} : f.count k = 1 → f[x]? = some k → BestReceiver rowPtr colInd f m x r →
      Merges rowPtr colInd m ks (f.set x r) f' → Merges rowPtr colInd m (k :: ks) f f'

/-- the coarse cells not made from a line that have a single fine cell, by increasing index -/
def singlesOf (f : List Nat) (m N : Nat) : List Nat :=
  (List.range N).filter (fun k => decide (m ≤ k) && decide (f.count k = 1))

/-- indices renumbered without gaps, in the same order: an index becomes the number of
smaller indices in use -/
def renumbered (f : List Nat) : List Nat :=
  f.map (fun k => ((List.range k).filter (fun j => decide (j ∈ f))).length)

/-- the result of correction: merge the single cells, then renumber -/
def CorrectionOf (rowPtr colInd : List Nat) (m : Nat) (f f' : List Nat) : Prop :=
  ∃ N f1, (∀ k ∈ f, k < N) ∧ Merges rowPtr colInd m (singlesOf f m N) f f1 ∧ f' = renumbered f1

end CoMMA
