import Mathlib.Algebra.BigOperators.Intervals
import Verif.Spec.Graph
/-! # Structured grids

Only connectivity: `pos c` holds the coordinates of cell `c`, which are whole numbers.  Cells may
be numbered in any way. -/

namespace CoMMA

/-- two points that are neighbours along one of `D` axes -/
def NextTo (D : Nat) (u v : Nat → Nat) : Prop :=
  ∃ ax < D, (u ax + 1 = v ax ∨ v ax + 1 = u ax) ∧ ∀ b < D, b ≠ ax → u b = v b

/-- number of sides of the cell at `u` that lie on the boundary of a grid with `ext` cells along
each axis -/
def sidesOut (D : Nat) (ext u : Nat → Nat) : Nat :=
  ∑ ax ∈ Finset.range D, ((if u ax = 0 then 1 else 0) + (if u ax + 1 = ext ax then 1 else 0))

/-- `n` cells, at the points of a grid with `ext` cells along each of `D` axes; `R` relates the
cells that are neighbours in the grid -/
structure IsGrid (D : Nat) (ext : Nat → Nat) (n : Nat) (pos : Nat → Nat → Nat) (R : Nat → Nat → Prop) : Prop where
  range : ∀ c < n, ∀ ax < D, pos c ax < ext ax
  inj : ∀ c < n, ∀ c' < n, (∀ ax < D, pos c ax = pos c' ax) → c = c'
  surj : ∀ v : Nat → Nat, (∀ ax < D, v ax < ext ax) → ∃ c < n, ∀ ax < D, pos c ax = v ax
  adj : ∀ c c', R c c' ↔ c < n ∧ c' < n ∧ NextTo D (pos c) (pos c')

/-- the cells at `u` and `v` are in the same block of two cells along each axis -/
def SameBlock (D : Nat) (u v : Nat → Nat) : Prop := ∀ ax < D, u ax / 2 = v ax / 2

/-- neighbours along the axis `ax` -/
def NextAlong (D ax : Nat) (u v : Nat → Nat) : Prop := (u ax + 1 = v ax ∨ v ax + 1 = u ax) ∧ ∀ b < D, b ≠ ax → u b = v b

/-- the cells at `u` and `v` are in the same column along the axis `ax` -/
def SameColumn (D ax : Nat) (u v : Nat → Nat) : Prop := ∀ b < D, b ≠ ax → u b = v b

/-- the place of a cell of a column of `len` cells, counted from one end or from the other -/
def fromEnd (len : Nat) (up : Bool) (p : Nat) : Nat := if up then p else len - 1 - p

/-- the pair of the cell at the place `p` of a column of `len` cells; if `odd`, the last cell of a column of odd length
is added to the last pair -/
def pairAt (len : Nat) (odd : Bool) (p : Nat) : Nat := if odd then min (p / 2) (len / 2 - 1) else p / 2

/-- the centers of a Cartesian mesh: the coordinate `b` of the center of a cell is the one of its place along the axis `b` -/
def PlacedAt {W : Type} (D n : Nat) (pos : Nat → Nat → Nat) (X : Nat → Nat → W) (centers : List (List W)) : Prop :=
  ∀ i < n, centers[i]? = some ((List.range D).map (fun b => X b (pos i b)))

end CoMMA
