import Verif.Model.SeedsPool
/-! # Vocabulary for the properties of the seeds pools -/

namespace CoMMA

variable {W : Type} [Num W]

/-- The pool was built on `n ≥ 1` cells: one boundary count (at most 3, as after the
clamp of `agglomerate_one_level`) and one priority per cell. -/
structure PoolInput (c : PoolCfg W) (n : Nat) : Prop where
  pos : 0 < n
  bnd : c.nBnd.length = n
  prio : c.prio.length = n
  le3 : ∀ b ∈ c.nBnd, b ≤ 3

/-- One-point initialisation is only sound if no priority is below the smallest
positive number (see C33) and indices fit their type. -/
def PrioritiesOk (c : PoolCfg W) : Prop :=
  c.onePoint = true → c.nBnd.length ≤ c.idxMax ∧ ∀ w ∈ c.prio, Num.lt w Num.lmin = false

/-- A history of calls on a pool, together with the agglomeration status of the cells
and a flag telling whether the pool was ever initialised or given a top queue.  Cells can be marked at any
time, never unmarked; new seeds may be any cells. -/
inductive PoolRun (c : PoolCfg W) (n : Nat) : Pool → List Bool → Bool → Prop where
  | start : PoolRun c n Pool.new (List.replicate n false) false
  | init {p p' agg b} : PoolRun c n p agg b → p.initialize c = .ok p' → PoolRun c n p' agg true
  | update {p p' agg b} {seeds : List Nat} : PoolRun c n p agg b → (∀ s ∈ seeds, s < n) →
      p.update c seeds = .ok p' → PoolRun c n p' agg b
  | orderUpdate {p p' agg b} {h : Hash} {seeds : NSet} : PoolRun c n p agg b → (∀ s ∈ seeds, s < n) →
      p.orderUpdate c h seeds = .ok p' → PoolRun c n p' agg b
  | needInit {p p' agg b r} : PoolRun c n p agg b → p.needInit c agg = .ok (r, p') → PoolRun c n p' agg b
  | choose {p p' agg b o} : PoolRun c n p agg b → p.choose c agg = .ok (o, p') → PoolRun c n p' agg b
  | setTop {p agg b lvl} : PoolRun c n p agg b → (∃ x ∈ c.nBnd, lvl ≤ x) → PoolRun c n (p.setTop lvl) agg true
  | mark {p agg agg' b} : PoolRun c n p agg b → agg'.length = agg.length →
      (∀ i : Nat, agg[i]? = some true → agg'[i]? = some true) → PoolRun c n p agg' b

/-- A history of a pool that is initialised first, as in an isotropic agglomeration:
the top queue is never set by hand. -/
inductive IsoRun (c : PoolCfg W) (n : Nat) : Pool → List Bool → Prop where
  | start {p} : Pool.new.initialize c = .ok p → IsoRun c n p (List.replicate n false)
  | init {p p' agg} : IsoRun c n p agg → p.initialize c = .ok p' → IsoRun c n p' agg
  | update {p p' agg} {seeds : List Nat} : IsoRun c n p agg → (∀ s ∈ seeds, s < n) →
      p.update c seeds = .ok p' → IsoRun c n p' agg
  | orderUpdate {p p' agg} {h : Hash} {seeds : NSet} : IsoRun c n p agg → (∀ s ∈ seeds, s < n) →
      p.orderUpdate c h seeds = .ok p' → IsoRun c n p' agg
  | needInit {p p' agg r} : IsoRun c n p agg → p.needInit c agg = .ok (r, p') → IsoRun c n p' agg
  | choose {p p' agg o} : IsoRun c n p agg → p.choose c agg = .ok (o, p') → IsoRun c n p' agg
  | mark {p agg agg'} : IsoRun c n p agg → agg'.length = agg.length →
      (∀ i : Nat, agg[i]? = some true → agg'[i]? = some true) → IsoRun c n p agg'

/-- cell `a` comes before cell `b`: higher priority, or same priority and lower index -/
def Before (prio : List W) (a b : Nat) : Prop :=
  ∃ wa wb, prio[a]? = some wa ∧ prio[b]? = some wb ∧ (Num.lt wb wa = true ∨ (wa = wb ∧ a < b))

/-- `l` lists cells by decreasing priority, increasing index among equal priorities
(hence without repetition) -/
def PriorityOrdered (prio : List W) (l : List Nat) : Prop :=
  l.Pairwise (Before prio)

/-- the queue that receives a seed with `b` boundary faces: its own level with boundary
priority; with neighbourhood priority, no level above the one in use -/
def seedLevel (kind : PoolKind) (top : Option Nat) (b : Nat) : Nat :=
  match kind, top with
  | .boundary, _ => b
  | .neighbourhood, none => b
  | .neighbourhood, some t => min b t

end CoMMA
