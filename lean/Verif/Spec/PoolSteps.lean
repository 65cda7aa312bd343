import Verif.Spec.Pool
/-! # What each operation of a seeds pool does -/

namespace CoMMA

variable {W : Type} [Num W]

/-- `s` is the first free cell of a queue, `rest` are the cells behind it -/
def FirstFree (agg : List Bool) (q : List Nat) (s : Nat) (rest : List Nat) : Prop :=
  ∃ pre, q = pre ++ s :: rest ∧ (∀ x ∈ pre, agg[x]? = some true) ∧ agg[s]? = some false

/-- lowest level searched for waiting cells when level `t` is in use: only level `t` is
searched with boundary priority, the lower ones too with neighbourhood priority -/
def lowestLevel : PoolKind → Nat → Nat
  | .boundary, t => t
  | .neighbourhood, _ => 0

/-- no free cell waits on the levels from `lo` to `t` -/
def NoneWaiting (agg : List Bool) (p : Pool) (lo t : Nat) : Prop :=
  ∀ (k : Nat) q, lo ≤ k → k ≤ t → p.queues[k]? = some q → ∀ x ∈ q, agg[x]? = some true

/-- Level to which the pool goes when no free cell waits on the levels searched: the number of
boundary faces of the first free cell, by index, that has at least `t`; if there is none, the
largest number of boundary faces of a free cell. -/
def NextLevel (nBnd : List Nat) (agg : List Bool) (t cur : Nat) : Prop :=
  (∃ i : Nat, nBnd[i]? = some cur ∧ agg[i]? = some false ∧ t ≤ cur ∧
    ∀ (j : Nat) b, j < i → nBnd[j]? = some b → agg[j]? = some false → b < t) ∨
  ((∃ i : Nat, nBnd[i]? = some cur ∧ agg[i]? = some false) ∧ cur < t ∧
    ∀ (j : Nat) b, nBnd[j]? = some b → agg[j]? = some false → b ≤ cur)

/-- The free cells with `k` boundary faces, by decreasing priority, then increasing index. -/
def FreeOfLevel (c : PoolCfg W) (agg : List Bool) (k : Nat) (l : List Nat) : Prop :=
  PriorityOrdered c.prio l ∧ ∀ i : Nat, i ∈ l ↔ c.nBnd[i]? = some k ∧ agg[i]? = some false

/-- A choice of a seed: answer and new state of the pool. -/
inductive SeedChosen (c : PoolCfg W) (agg : List Bool) (p : Pool) : Option Nat → Pool → Prop where
  /-- no level is in use -/
  | off : p.top = none → SeedChosen c agg p none p
  /-- the first free cell waiting on the highest level searched that has one; what waited
  before it is forgotten -/
  | waiting {t k s : Nat} {q rest : List Nat} {p' : Pool} : p.top = some t → lowestLevel c.kind t ≤ k → k ≤ t →
      NoneWaiting agg p (k + 1) t → p.queues[k]? = some q → FirstFree agg q s rest →
      p'.top = some k → p'.queues.length = p.queues.length →
      (∀ (j : Nat) r, p.queues[j]? = some r →
        p'.queues[j]? = some (if j = k then rest else if k < j ∧ j ≤ t then [] else r)) →
      SeedChosen c agg p (some s) p'
  /-- no cell is free -/
  | finished {t : Nat} {p' : Pool} : p.top = some t → NoneWaiting agg p (lowestLevel c.kind t) t →
      (∀ (i : Nat) b, c.nBnd[i]? = some b → agg[i]? = some true) →
      p'.top = none → p'.queues.length = p.queues.length →
      (∀ (j : Nat) r, p.queues[j]? = some r →
        p'.queues[j]? = some (if lowestLevel c.kind t ≤ j ∧ j ≤ t then [] else r)) →
      SeedChosen c agg p none p'
  /-- no free cell waits on the levels searched: the first free cell waiting on another level, or, if there is none,
  the first of all the free cells of that level, the others being queued -/
  | otherLevel {t cur s : Nat} {q rest : List Nat} {p' : Pool} : p.top = some t →
      NoneWaiting agg p (lowestLevel c.kind t) t → NextLevel c.nBnd agg t cur → p.queues[cur]? = some q →
      (FirstFree agg q s rest ∨ ((∀ x ∈ q, agg[x]? = some true) ∧ FreeOfLevel c agg cur (s :: rest))) →
      p'.top = some cur → p'.queues.length = p.queues.length →
      (∀ (j : Nat) r, p.queues[j]? = some r →
        p'.queues[j]? = some (if j = cur then rest else if lowestLevel c.kind t ≤ j ∧ j ≤ t then [] else r)) →
      SeedChosen c agg p (some s) p'

/-- A group of new seeds joins the queues: on each level, behind the cells already there,
exactly the new seeds of that level, those with more boundary faces first, then by decreasing
priority, then by increasing index.  With boundary priority the level in use rises to the
largest number of boundary faces of the new seeds. -/
structure SeedsJoined (c : PoolCfg W) (seeds : NSet) (p p' : Pool) : Prop where
  size : p'.queues.length = p.queues.length
  queues : ∀ (k : Nat) q, p.queues[k]? = some q → ∃ l, p'.queues[k]? = some (q ++ l) ∧
    (∀ s, s ∈ l ↔ s ∈ seeds ∧ ∃ b, c.nBnd[s]? = some b ∧ seedLevel c.kind p.top b = k) ∧
    l.Pairwise (fun x y => ∃ bx bny, c.nBnd[x]? = some bx ∧ c.nBnd[y]? = some bny ∧
      (bny < bx ∨ (bx = bny ∧ Before c.prio x y)))
  keep : c.kind = .neighbourhood ∨ (∀ s, s ∉ seeds) → p'.top = p.top
  raise : c.kind = .boundary → (∃ s, s ∈ seeds) → ∃ t, p'.top = some t ∧
    (∀ t0, p.top = some t0 → t0 ≤ t) ∧ (∀ s ∈ seeds, ∀ b, c.nBnd[s]? = some b → b ≤ t) ∧
    (p.top = some t ∨ ∃ s ∈ seeds, c.nBnd[s]? = some t)

/-- A new pool, initialised: the level in use is the largest number of boundary faces of a
cell; all the cells that have as many wait on it, by decreasing priority, then increasing
index, or only the first of them with a one-point initialisation; no cell waits on the other
levels. -/
structure PoolStarted (c : PoolCfg W) (p : Pool) : Prop where
  start : ∃ t l, p.top = some t ∧ t ∈ c.nBnd ∧ (∀ b ∈ c.nBnd, b ≤ t) ∧
    p.queues = ([[], [], [], []] : List (List Nat)).set t (if c.onePoint then l.take 1 else l) ∧
    FreeOfLevel c (List.replicate c.nBnd.length false) t l

/-- those of the cells `w` that wait on level `k`, in the order of `w`, when level `t` is in use -/
def waitOn (c : PoolCfg W) (t : Nat) (w : List Nat) (k : Nat) : List Nat :=
  w.filter (fun x => decide ((c.nBnd[x]?).map (seedLevel c.kind (some t)) = some k))

/-- The cells with at least `m` boundary faces, by decreasing priority, then increasing index. -/
def AtLeast (c : PoolCfg W) (m : Nat) (l : List Nat) : Prop :=
  PriorityOrdered c.prio l ∧ ∀ i : Nat, i ∈ l ↔ ∃ b, c.nBnd[i]? = some b ∧ m ≤ b

/-- The pool when the lines have been agglomerated; `w` are the cells met next to the lines
that are still free, in the order in which they are met (with repetitions). -/
inductive PoolAfterLines (c : PoolCfg W) (agg : List Bool) (w : List Nat) (p : Pool) : Prop where
  /-- no such cell: the pool is initialised as if there were no lines -/
  | fresh : w = [] → PoolStarted c p → PoolAfterLines c agg w p
  /-- neighbourhood priority: the first of them gives the level, all of them wait -/
  | near {x t : Nat} : c.kind = .neighbourhood → w.head? = some x → c.nBnd[x]? = some t → p.top = some t →
      p.queues = (List.range 4).map (waitOn c t w) → PoolAfterLines c agg w p
  /-- boundary priority, no free cell of the mesh has more boundary faces: all of them wait -/
  | level {x t : Nat} : c.kind = .boundary → x ∈ w → c.nBnd[x]? = some t →
      (∀ (i : Nat) b, c.nBnd[i]? = some b → agg[i]? = some false → b ≤ t) → p.top = some t →
      p.queues = (List.range 4).map (waitOn c t w) → PoolAfterLines c agg w p
  /-- boundary priority, other free cells have more boundary faces, `m` at most: the queue of
  that level is initialised, with all the cells of the mesh that have at least `m` -/
  | higher {i m : Nat} {l : List Nat} : c.kind = .boundary → w ≠ [] → c.nBnd[i]? = some m → agg[i]? = some false →
      (∀ (j : Nat) b, c.nBnd[j]? = some b → agg[j]? = some false → b ≤ m) →
      (∀ x ∈ w, ∀ b, c.nBnd[x]? = some b → b < m) → AtLeast c m l → p.top = some m →
      p.queues = ((List.range 4).map (waitOn c m w)).set m (if c.onePoint then l.take 1 else l) →
      PoolAfterLines c agg w p

end CoMMA
