import Verif.Spec.TopLevel
/-! # Lines cut in two, level after level -/

namespace CoMMA

variable {W : Type} [Num W]

/-- a call that uses the lines at hand, all of each line -/
structure UsesLines (P : Platform) (a : Args W) : Prop where
  params : ValidParams P a
  corr : CorrectsSingletons a
  on : a.isAniso = true
  given : a.buildLines = false
  whole : lineLimit a = none

/-- the coarse cells of the line `l`, which has an even number of cells, are those of `l'`: pairs of consecutive cells,
from one end of the line or from the other -/
def Halved (f : List Nat) (l l' : List Nat) : Prop :=
  l.length = 2 * l'.length ∧ ∃ m, (m = l ∨ m = l.reverse) ∧ ∀ p k : Nat, l'[p]? = some k →
    ∀ i : Nat, f[i]? = some k ↔ m[2 * p]? = some i ∨ m[2 * p + 1]? = some i

/-- cells that map to the same value as the cell at place `p` of the line: those in the same stretch of `s` cells -/
def InStretches (g : Nat → Option Nat) (n s : Nat) (l : List Nat) : Prop :=
  ∀ p c : Nat, l[p]? = some c → ∀ i < n, (g i = g c ↔ ∃ q : Nat, l[q]? = some i ∧ q / s = p / s)

end CoMMA
