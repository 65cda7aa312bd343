import Verif.Spec.LineLevels
/-! # Lines of any length, level after level -/

namespace CoMMA

/-- The line `l`, of `l.length` cells, is cut into `l.length / c` stretches of consecutive cells, `b t` being the first place of the stretch `t`: each
stretch has at least `c` and fewer than `2 * c` cells, and the cells with the same image by `g` as a cell of the line (among the
first `n` cells) are those of its stretch. -/
structure CutInto (g : Nat → Option Nat) (n c : Nat) (l : List Nat) (b : Nat → Nat) : Prop where
  first : b 0 = 0
  last : b (l.length / c) = l.length
  least : ∀ t < l.length / c, b t + c ≤ b (t + 1)
  most : ∀ t < l.length / c, b (t + 1) < b t + 2 * c
  same : ∀ p x : Nat, l[p]? = some x → ∀ i < n, (g i = g x ↔
    ∃ q : Nat, l[q]? = some i ∧ ∀ t ≤ l.length / c, (b t ≤ p ↔ b t ≤ q))

/-- the coarse cells of the line `l` are those of `l'`: pairs of consecutive cells, from one end of the line or from the other; a last single cell
is in the last pair -/
def PairedUp (f : List Nat) (l l' : List Nat) : Prop :=
  l'.length = l.length / 2 ∧ ∃ m, (m = l ∨ m = l.reverse) ∧ ∀ p k : Nat, l'[p]? = some k →
    ∀ i : Nat, f[i]? = some k ↔ ∃ q : Nat, m[q]? = some i ∧ min (q / 2) (l.length / 2 - 1) = p

/-- From the place `d` on, the line `l` is cut into `l.length / c` stretches of `c` consecutive cells: the cells with the same image by `g`
as a cell of a stretch (among the first `n` cells) are those of the stretch. -/
structure CutEvenly (g : Nat → Option Nat) (n c : Nat) (l : List Nat) (d : Nat) : Prop where
  fits : d + c * (l.length / c) ≤ l.length
  same : ∀ p x : Nat, l[p]? = some x → d ≤ p → p < d + c * (l.length / c) → ∀ i < n, (g i = g x ↔
    ∃ q : Nat, l[q]? = some i ∧ d ≤ q ∧ (q - d) / c = (p - d) / c)

/-- as `PairedUp`, a last single cell being left out -/
def PairedEvenly (f : List Nat) (l l' : List Nat) : Prop :=
  l'.length = l.length / 2 ∧ ∃ m, (m = l ∨ m = l.reverse) ∧ ∀ p k : Nat, l'[p]? = some k →
    ∀ i : Nat, f[i]? = some k ↔ ∃ q : Nat, m[q]? = some i ∧ q / 2 = p

end CoMMA
