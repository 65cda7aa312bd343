import Verif.Spec.Chains
import Verif.Spec.TopLevel
/-! # Boundary layers: cells stacked in columns -/

namespace CoMMA

variable {W : Type} [Num W]

/-- The cells of `T` are stacked in columns: `col` tells the column of a cell and `height` its place in it; the column `c`
has `len c` cells, one at each height. -/
structure Stacked (T : Nat → Prop) (col height len : Nat → Nat) : Prop where
  inj : ∀ u v, T u → T v → col u = col v → height u = height v → u = v
  range : ∀ u, T u → height u < len (col u)
  full : ∀ u, T u → ∀ q < len (col u), ∃ v, T v ∧ col v = col u ∧ height v = q

/-- `v` is the cell above or below `u` -/
def OnTop (col height : Nat → Nat) (u v : Nat) : Prop := col u = col v ∧ (height u + 1 = height v ∨ height v + 1 = height u)

/-- among the cells of `T` the strong couplings are those of cells on top of each other -/
def StrongColumns (g : Graph W) (coupling : Coupling) (T : Nat → Prop) (col height : Nat → Nat) : Prop :=
  ∀ u v, T u → T v → (StrongTo g coupling u v ↔ OnTop col height u v)

/-- the cells a call that builds lines makes them of: those compliant and anisotropic -/
def InLayers (a : Args W) (i : Nat) : Prop := i ∈ a.compliant ∧ IsAnisotropic (graphOf a) (meantThreshold a.thr) i

/-- The number of cells of a line of `len` cells (two at least) that are put in coarse cells of the line.  Without limit all of them, except
the last one if the number is odd and this is not allowed.  With a limit the number of cells counts up to the limit;
but if one more cell than an even limit is there, and odd numbers are allowed, it is taken too. -/
def takenCells (odd : Bool) (limit : Option Int) (len : Nat) : Nat :=
  match limit with
  | none => if odd then len else len / 2 * 2
  | some m =>
    if m < 2 then 0
    else if odd then (if m % 2 = 0 ∧ (len : Int) = m + 1 then len else min m.toNat len)
    else min m.toNat len / 2 * 2

/-- the pair of the cell at the place `p`, `taken` cells being taken: a last single cell joins the last pair -/
def groupAt (taken p : Nat) : Nat := min (p / 2) (taken / 2 - 1)

end CoMMA
