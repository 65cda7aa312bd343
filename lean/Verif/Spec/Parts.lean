import Verif.Spec.WholeCall
import Verif.Spec.Features
/-! # Vocabulary for meshes made of parts that are not connected -/

namespace CoMMA

variable {W : Type} [Num W]

/-- the coarse cell of `i` has a smaller number than that of `j` -/
def NumberedBefore (f : List Nat) (i j : Nat) : Prop := ∃ k l, f[i]? = some k ∧ f[j]? = some l ∧ k < l

/-- The calls `a` and `a'`, on meshes of `n` and `n'` cells, share the cells `K`: these have no
faces with other cells, and the same faces, in the same order, boundary faces, volumes, centers and priorities in
both calls; they are compliant in both or in none.  The other arguments are the same; the other
cells are arbitrary. -/
structure SharedPart (K : Nat → Prop) (a a' : Args W) (n n' : Nat) : Prop where
  cells : ∀ i, K i → i < n ∧ i < n'
  closed : ∀ i j, K i → Adj a.rowPtr a.colInd i j → K j
  faces : ∀ i, K i → facesOf (graphOf a') i = facesOf (graphOf a) i
  volumes : ∀ i : Nat, K i → a'.volumes[i]? = a.volumes[i]?
  centers : ∀ i : Nat, K i → a'.centers[i]? = a.centers[i]?
  prio : ∀ i : Nat, K i → a'.prio[i]? = a.prio[i]?
  bnd : ∀ i : Nat, K i → a'.nBnd[i]? = a.nBnd[i]?
  compliant : ∀ i, K i → (i ∈ a'.compliant ↔ i ∈ a.compliant)
  others : a' = { a with
    rowPtr := a'.rowPtr, colInd := a'.colInd, values := a'.values, volumes := a'.volumes,
    centers := a'.centers, prio := a'.prio, nBnd := a'.nBnd, compliant := a'.compliant }

/-- What two maps from cells to coarse cells have in common on `K`: cells of `K` are together in both or
in none; their coarse cells are numbered in the same order (not with the same numbers: coarse cells of
the rest may come in between); no coarse cell has cells in `K` and cells outside. -/
structure SameCells (K : Nat → Prop) (f f' : List Nat) : Prop where
  together : ∀ i j : Nat, K i → K j → (f[i]? = f[j]? ↔ f'[i]? = f'[j]?)
  order : ∀ i j, K i → K j → (NumberedBefore f i j ↔ NumberedBefore f' i j)
  apart : ∀ i j : Nat, K i → ¬ K j → f[i]? ≠ f[j]? ∧ f'[i]? ≠ f'[j]?

open Classical in
/-- the lines that have a cell in `K` -/
noncomputable def linesIn (K : Nat → Prop) (ls : List (List Nat)) : List (List Nat) := ls.filter (fun l => decide (∃ x ∈ l, K x))

/-- each line is inside `K` or outside -/
def Inside (K : Nat → Prop) (ls : List (List Nat)) : Prop := ∀ l ∈ ls, ∀ x ∈ l, K x → ∀ y ∈ l, K y

/-- the lines given to a call that does not build them; there may be none -/
def GivenLines (a : Args W) (o : Outs) (n : Nat) (ls : List (List Nat)) : Prop :=
  (WithoutLines a o ∧ ls = []) ∨ GivesLines a o n ls

/-- Both calls build lines, or the lines given to them are inside `K` or outside and those inside
are the same, in the same order. -/
def SharedLines (K : Nat → Prop) (a a' : Args W) (o o' : Outs) (n n' : Nat) : Prop :=
  (BuildsLines a n ∧ BuildsLines a' n') ∨
    ∃ ls ls', GivenLines a o n ls ∧ GivenLines a' o' n' ls' ∧ Inside K ls ∧ Inside K ls' ∧ linesIn K ls = linesIn K ls'

end CoMMA
