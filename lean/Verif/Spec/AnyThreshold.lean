import Verif.Spec.Correction
/-! # What correction with any threshold does to the returned vector, exactly

`f` gives the coarse index of each fine cell; coarse cells with an index below `m` are those
made from lines. -/

namespace CoMMA

/-- the coarse cells not made from a line with at most `t` fine cells, by increasing index;
`N` is the number of coarse cells -/
def smallsOf (f : List Nat) (m t N : Nat) : List Nat :=
  (List.range N).filter (fun k => decide (m ≤ k) && decide (f.count k ≤ t))

/-- coarse cell `k` given as a whole to coarse cell `r` -/
def absorbed (f : List Nat) (k r : Nat) : List Nat := f.map (fun j => if j = k then r else j)

/-- `r` may receive coarse cell `k` as a whole: another coarse cell, not made from a line,
with a common face, whose compactness increases -/
def WholeReceiver (rowPtr colInd f : List Nat) (m k r : Nat) : Prop :=
  r ≠ k ∧ m ≤ r ∧ (∃ x y : Nat, f[x]? = some k ∧ Adj rowPtr colInd x y ∧ f[y]? = some r) ∧
    ∃ a b, IsCompactness rowPtr colInd (fcsOf f r) a ∧ IsCompactness rowPtr colInd (fcsOf (absorbed f k r) r) b ∧ a < b

/-- the best one: fewest cells, then smallest index -/
def BestWhole (rowPtr colInd f : List Nat) (m k r : Nat) : Prop :=
  WholeReceiver rowPtr colInd f m k r ∧ ∀ s, WholeReceiver rowPtr colInd f m k s →
    f.count r < f.count s ∨ (f.count r = f.count s ∧ r ≤ s)

/-- `r` is the best receiver of `x` in the state `f`, among those it had in the state `start`
(compare `BestReceiver`) -/
def BestReceiverSince (rowPtr colInd start f : List Nat) (m x r : Nat) : Prop :=
  Receiver rowPtr colInd start m x r ∧ ∀ s, Receiver rowPtr colInd start m x s →
    (Gains rowPtr colInd f x r ∧ ¬ Gains rowPtr colInd f x s) ∨
      ((Gains rowPtr colInd f x r ↔ Gains rowPtr colInd f x s) ∧ Closer rowPtr colInd f x r s)

/-- the listed fine cells are given away one after the other; a cell without receiver keeps
its index -/
inductive CellByCell (rowPtr colInd : List Nat) (m : Nat) (start : List Nat) :
    List Nat → List Nat → List Nat → Prop where
  | done {f} : CellByCell rowPtr colInd m start [] f f
  | stays {x xs f f'} : (∀ r, ¬ Receiver rowPtr colInd start m x r) → CellByCell rowPtr colInd m start xs f f' →
      CellByCell rowPtr colInd m start (x :: xs) f f'
  | given {x xs r f f'} : BestReceiverSince rowPtr colInd start f m x r → CellByCell rowPtr colInd m start xs (f.set x r) f' →
      CellByCell rowPtr colInd m start (x :: xs) f f'

/-- The listed small coarse cells are treated one after the other.  `D` are the indices
removed so far.  A coarse cell with more than one fine cell is given as a whole to the best
receiver.  If there is none, its fine cells are given away one by one, in some order, and the
coarse cell is removed if at least one of them had a receiver; the others keep the index of
the removed coarse cell. -/
inductive TreatsSmall (rowPtr colInd : List Nat) (m : Nat) :
    List Nat → List Nat → List Nat → List Nat → List Nat → Prop where
  | done {f D} : TreatsSmall rowPtr colInd m [] f D f D
  | whole {k ks r f f' D D'} : 1 < f.count k → BestWhole rowPtr colInd f m k r →
      TreatsSmall rowPtr colInd m ks (absorbed f k r) (k :: D) f' D' → TreatsSmall rowPtr colInd m (k :: ks) f D f' D'
  | cells {k ks xs f f1 f' D D'} : (1 < f.count k → ∀ r, ¬ WholeReceiver rowPtr colInd f m k r) →
      xs.Nodup → (∀ x : Nat, x ∈ xs ↔ f[x]? = some k) → (∃ x ∈ xs, ∃ r, Receiver rowPtr colInd f m x r) →
      CellByCell rowPtr colInd m f xs f f1 →
      TreatsSmall rowPtr colInd m ks f1 (k :: D) f' D' → TreatsSmall rowPtr colInd m (k :: ks) f D f' D'
  | alone {k ks f f' D D'} : (∀ x : Nat, f[x]? = some k → ∀ r, ¬ Receiver rowPtr colInd f m x r) →
      TreatsSmall rowPtr colInd m ks f D f' D' → TreatsSmall rowPtr colInd m (k :: ks) f D f' D'

/-- indices not in `D` are renumbered without gaps, in the same order; those in `D` are kept -/
def renumberedBut (f D : List Nat) : List Nat :=
  f.map (fun k => if k ∈ D then k else ((List.range k).filter (fun j => decide (j ∉ D))).length)

/-- the result of correction with threshold `t` -/
def SmallCorrectionOf (rowPtr colInd : List Nat) (m t : Nat) (f f' : List Nat) : Prop :=
  ∃ N f1 D, (∀ k, k ∈ f ↔ k < N) ∧ TreatsSmall rowPtr colInd m (smallsOf f m t N) f [] f1 D ∧ f' = renumberedBut f1 D

/-- coarse cells with more than `t` cells stay together and apart, those made from lines do
not change -/
structure KeepsLarge (m t : Nat) (f f' : List Nat) : Prop where
  length : f'.length = f.length
  large : ∀ (i j : Nat) k l, f[i]? = some k → f[j]? = some l → t < f.count k → t < f.count l → (f'[i]? = f'[j]? ↔ k = l)
  lines : ∀ (i : Nat) k, k < m → (f'[i]? = some k ↔ f[i]? = some k)

end CoMMA
