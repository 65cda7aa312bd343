import Mathlib.Data.Nat.Basic
/-! # Groups of consecutive cells of a row -/

namespace CoMMA

/-- Number of the group of the cell at place `p` of a row cut into groups of `m` consecutive cells, counted from both ends, except
that group `t` has `r` cells, those from place `t * m` on (none if `r` is zero). -/
def rowGroup (m r t p : Nat) : Nat :=
  if p < t * m then p / m else if p < t * m + r then t else (p - (t * m + r)) / m + t + 1

/-- `n / k` rounded up -/
def upDiv (n k : Nat) : Nat := (n + k - 1) / k

/-- number of coarse cells of a row of `k` cells in groups of `m`: the cells left make a group of their own, unless there is one such
cell and another group it can join -/
def groupsOf (m k : Nat) : Nat := if k % m = 1 ∧ 1 < k then k / m else upDiv k m

/-- `1 + m₁ + m₁ m₂ + … + m₁ m₂ … mₖ` -/
def reach : List Nat → Nat
  | [] => 1
  | m :: r => 1 + m * reach r

end CoMMA
