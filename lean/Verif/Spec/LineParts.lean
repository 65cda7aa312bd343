import Verif.Spec.LineLevels
import Verif.Spec.Columns
/-! # Lines with limits, level after level -/

namespace CoMMA

variable {W : Type} [Num W]

/-- a call that uses the lines at hand; `odd` tells if odd numbers of cells are allowed, `limit` is the maximum of cells of a line -/
structure FollowsWith (P : Platform) (a : Args W) (odd : Bool) (limit : Option Int) : Prop where
  params : ValidParams P a
  corr : CorrectsSingletons a
  on : a.isAniso = true
  given : a.buildLines = false
  odd : a.oddLine = odd
  limit : lineLimit a = limit

/-- the number of coarse cells of a line of `len` cells after several levels, which have the settings `s`: half as many as the cells taken, at
each level -/
def cellsLeft : List (Bool × Option Int) → Nat → Nat
  | [], len => len
  | s :: r, len => cellsLeft r (takenCells s.1 s.2 len / 2)

/-- at no level the line is one cell shorter than an odd limit (see C21) -/
def NeverShort : List (Bool × Option Int) → Nat → Prop
  | [], _ => True
  | s :: r, len => (2 ≤ len → ∀ m, s.2 = some m → ¬ (m % 2 = 1 ∧ 3 ≤ m ∧ (len : Int) + 1 = m)) ∧
      NeverShort r (takenCells s.1 s.2 len / 2)

/-- at each level all the cells of the line are taken -/
def AllTaken : List (Bool × Option Int) → Nat → Prop
  | [], _ => True
  | s :: r, len => takenCells s.1 s.2 len = len ∧ AllTaken r (takenCells s.1 s.2 len / 2)

/-- Part of the line `l` is cut into `k` stretches of consecutive cells, `b t` being the first place of the stretch `t` and `b k` the end of the
last one: each stretch has at least `c` and fewer than `2 * c` cells, and the cells with the same image by `g` as a cell of a
stretch (among the first `n` cells) are those of the stretch. -/
structure CutPart (g : Nat → Option Nat) (n c : Nat) (l : List Nat) (k : Nat) (b : Nat → Nat) : Prop where
  last : b k ≤ l.length
  least : ∀ t < k, b t + c ≤ b (t + 1)
  most : ∀ t < k, b (t + 1) < b t + 2 * c
  same : ∀ p x : Nat, l[p]? = some x → b 0 ≤ p → p < b k → ∀ i < n, (g i = g x ↔
    ∃ q : Nat, l[q]? = some i ∧ ∀ t ≤ k, (b t ≤ p ↔ b t ≤ q))

/-- the coarse cells of the line `m`, as it is read, are those of `l'`: pairs of consecutive cells of the first `taken` ones, a last single cell being in
the last pair -/
def PairedFront (taken : Nat) (f m l' : List Nat) : Prop :=
  taken ≤ m.length ∧ l'.length = taken / 2 ∧ ∀ p k : Nat, l'[p]? = some k → ∀ i : Nat, f[i]? = some k ↔
    ∃ q < taken, m[q]? = some i ∧ groupAt taken q = p

end CoMMA
