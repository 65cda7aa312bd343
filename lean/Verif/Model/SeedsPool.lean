import Verif.Model.Pairs
/-! # Seeds pools (include/CoMMA/Seeds_Pool.h) -/

namespace CoMMA

/-- which of the two subclasses of `Seeds_Pool` (include/CoMMA/Seeds_Pool.h:451, 611) -/
inductive PoolKind where
  | boundary
  | neighbourhood
  deriving DecidableEq, Repr

/-- Constant members of `Seeds_Pool` (include/CoMMA/Seeds_Pool.h:232, 240, 246).
`idxMax` is `std::numeric_limits<CoMMAIndexType>::max()`. -/
structure PoolCfg (W : Type) where
  kind : PoolKind
  onePoint : Bool
  prio : List W
  nBnd : List Nat
  idxMax : Nat

/-- Mutable members of `Seeds_Pool`: `_l_of_seeds` and `_cur_top_queue`
(include/CoMMA/Seeds_Pool.h:229, 237). -/
structure Pool where
  queues : List (List Nat)
  top : Option Nat
  deriving DecidableEq, Repr

variable {W : Type} [Num W]

/-- constructor: `N_CELL_TYPES = 4` empty queues (include/CoMMA/Seeds_Pool.h:256-275,
include/CoMMA/CoMMADefs.h, enum CoMMACellT) -/
def Pool.new : Pool := ⟨[[], [], [], []], none⟩

/-- `SPFullInitializator::operator()` (include/CoMMA/Seeds_Pool.h:113-129) -/
def fullInit (c : PoolCfg W) (maxBnd : Nat) (q : List Nat) : M (List Nat) := do
  let s ← (List.range c.nBnd.length).foldlM (fun s i => do
    let b ← rd c.nBnd i
    if maxBnd ≤ b then do
      let w ← rd c.prio i
      pure (pinsert (i, w) s)
    else pure s) ([] : List (Nat × W))
  pure (q ++ firsts s)

/-- `SPOnePointInitializator::operator()` (include/CoMMA/Seeds_Pool.h:168-186) -/
def onePointInit (c : PoolCfg W) (maxBnd : Nat) (q : List Nat) : M (List Nat) := do
  let m ← (List.range c.nBnd.length).foldlM (fun m i => do
    let w ← rd c.prio i
    let b ← rd c.nBnd i
    pure (if decide (maxBnd ≤ b) && greaterPair (i, w) m then (i, w) else m))
    ((c.idxMax, Num.lmin) : Nat × W)
  pure (q ++ [m.1])

/-- `spoil_queue` (include/CoMMA/Seeds_Pool.h:286-299): result and remaining queue -/
def spoil (agg : List Bool) : List Nat → M (Option Nat × List Nat)
  | [] => pure (none, [])
  | x :: r => do
    let a ← rd agg x
    if a then spoil agg r else pure (some x, r)

/-- `build_queue` (include/CoMMA/Seeds_Pool.h:335-348) -/
def buildQueue (c : PoolCfg W) (agg : List Bool) (target : Nat) (p : Pool) : M Pool := do
  let s ← (List.range c.nBnd.length).foldlM (fun s i => do
    let a ← rd agg i
    if a then pure s else do
      let b ← rd c.nBnd i
      if b = target then do
        let w ← rd c.prio i
        pure (pinsert (i, w) s)
      else pure s) ([] : List (Nat × W))
  let q ← rd p.queues target
  let qs ← wr p.queues target (q ++ firsts s)
  pure { p with queues := qs }

/-- `b > m` between a value and an optional (include/CoMMA/Seeds_Pool.h:373): true if the optional is empty -/
def optLt (m : Option Nat) (b : Nat) : Bool :=
  match m with
  | none => true
  | some x => decide (x < b)

/-- body of the loop of `get_highest_n_bnd_yet_to_agglomerate` over the cells still to
be looked at (include/CoMMA/Seeds_Pool.h:364-378) -/
def highestAux (nBnd : List Nat) (agg : List Bool) (expected : Nat) :
    List Nat → Option Nat → M (Option Nat)
  | [], m => pure m
  | i :: is, m => do
    let a ← rd agg i
    if a then highestAux nBnd agg expected is m
    else do
      let b ← rd nBnd i
      let m := if m.isNone then some b else m
      if expected ≤ b then pure (some b)
      else
        let m := if optLt m b then some b else m
        highestAux nBnd agg expected is m

/-- `get_highest_n_bnd_yet_to_agglomerate` (include/CoMMA/Seeds_Pool.h:359-379) -/
def highest (nBnd : List Nat) (agg : List Bool) (expected : Nat) : M (Option Nat) :=
  highestAux nBnd agg expected (List.range nBnd.length) none

/-- `is_empty()` with the default level (include/CoMMA/Seeds_Pool.h:385-407) -/
def Pool.isEmpty (p : Pool) : M Bool := do
  let q0 ← rd p.queues 0
  let q1 ← rd p.queues 1
  let q2 ← rd p.queues 2
  let q3 ← rd p.queues 3
  pure (q0.isEmpty && q1.isEmpty && q2.isEmpty && q3.isEmpty)

/-- `*max_element(v.begin(), v.end())` (include/CoMMA/Seeds_Pool.h:422): dereferencing `end()` when empty -/
def maxElem (v : List Nat) : M Nat :=
  match v with
  | [] => .error .ub
  | x :: xs => .ok (xs.foldl max x)

/-- the call of the initializator (include/CoMMA/Seeds_Pool.h:268-274, 423-428) -/
def runInit (c : PoolCfg W) (t : Nat) (q : List Nat) : M (List Nat) :=
  if c.onePoint then onePointInit c t q else fullInit c t q

/-- `initialize` once the top queue is known (include/CoMMA/Seeds_Pool.h:423-428) -/
def Pool.initAt (c : PoolCfg W) (p : Pool) (t : Nat) : M Pool := do
  let q ← rd p.queues t
  let q' ← runInit c t q
  let qs ← wr p.queues t q'
  pure ⟨qs, some t⟩

/-- `initialize` (include/CoMMA/Seeds_Pool.h:418-429) -/
def Pool.initialize (c : PoolCfg W) (p : Pool) : M Pool :=
  match p.top with
  | some t => p.initAt c t
  | none => do
    let t ← maxElem c.nBnd
    p.initAt c t

/-- the part of `choose_new_seed` common to both classes: look for the highest
unfinished level, spoil its queue, rebuild it if needed
(include/CoMMA/Seeds_Pool.h:502-522 and 670-690) -/
def chooseFallback (c : PoolCfg W) (agg : List Bool) (p : Pool) (t : Nat) : M (Option Nat × Pool) := do
  match ← highest c.nBnd agg t with
  | none => pure (none, { p with top := none })
  | some cur => do
    let p := { p with top := some cur }
    let q ← rd p.queues cur
    let (o, q') ← spoil agg q
    let qs ← wr p.queues cur q'
    let p := { p with queues := qs }
    match o with
    | some s => pure (some s, p)
    | none => do
      let p ← buildQueue c agg cur p
      match ← rd p.queues cur with
      | [] => .error .ub            -- front() of an empty deque
      | s :: r => do
        let qs ← wr p.queues cur r
        pure (some s, { p with queues := qs })

/-- the loop of the neighbourhood pool over the queues `t, t-1, ..., 0`
(include/CoMMA/Seeds_Pool.h:658-667) -/
def spoilDown (agg : List Bool) : Nat → Pool → M (Option Nat × Pool)
  | 0, p => do
    let q ← rd p.queues 0
    let (o, q') ← spoil agg q
    let qs ← wr p.queues 0 q'
    match o with
    | some s => pure (some s, ⟨qs, some 0⟩)
    | none => pure (none, { p with queues := qs })
  | t + 1, p => do
    let q ← rd p.queues (t + 1)
    let (o, q') ← spoil agg q
    let qs ← wr p.queues (t + 1) q'
    match o with
    | some s => pure (some s, ⟨qs, some (t + 1)⟩)
    | none => spoilDown agg t { p with queues := qs }

/-- `choose_new_seed` of both classes (include/CoMMA/Seeds_Pool.h:487-525, 647-693) -/
def Pool.choose (c : PoolCfg W) (agg : List Bool) (p : Pool) : M (Option Nat × Pool) :=
  match p.top with
  | none => pure (none, p)
  | some t =>
    match c.kind with
    | .boundary => do
      let q ← rd p.queues t
      let (o, q') ← spoil agg q
      let qs ← wr p.queues t q'
      let p := { p with queues := qs }
      match o with
      | some s => pure (some s, p)
      | none => chooseFallback c agg p t
    | .neighbourhood => do
      let (o, p) ← spoilDown agg t p
      match o with
      | some s => pure (some s, p)
      | none => chooseFallback c agg p t

/-- new top queue once seeds with at most `mx` boundary faces came in
(include/CoMMA/Seeds_Pool.h:543-545, 565-567) -/
def raiseTop (o : Option Nat) (mx : Nat) : Option Nat :=
  match o with
  | none => some mx
  | some t => if t < mx then some mx else some t

/-- queue that receives a seed in the neighbourhood pool
(include/CoMMA/Seeds_Pool.h:705-707, 731-733) -/
def pushLevel (o : Option Nat) (b : Nat) : Nat :=
  match o with
  | none => b
  | some t => min b t

/-- append to a queue (include/CoMMA/Seeds_Pool.h:541, 571-576) -/
def pushTo (qs : List (List Nat)) (lvl : Nat) (l : List Nat) : M (List (List Nat)) := do
  let q ← rd qs lvl
  wr qs lvl (q ++ l)

/-- `update` of both classes (include/CoMMA/Seeds_Pool.h:533-547, 701-712) -/
def Pool.update (c : PoolCfg W) (seeds : List Nat) (p : Pool) : M Pool :=
  match c.kind with
  | .boundary =>
    if seeds.isEmpty then pure p
    else do
      let (mx, qs) ← seeds.foldlM (fun (mx, qs) s => do
        let b ← rd c.nBnd s
        let qs ← pushTo qs b [s]
        pure (if mx < b then b else mx, qs)) (0, p.queues)
      pure ⟨qs, raiseTop p.top mx⟩
  | .neighbourhood => do
    let qs ← seeds.foldlM (fun qs s => do
      let b ← rd c.nBnd s
      pushTo qs (pushLevel p.top b) [s]) p.queues
    pure { p with queues := qs }

/-- grouping of new seeds by number of boundary faces
(include/CoMMA/Seeds_Pool.h:559-563, 723-727); `h` gives the iteration order over the
unordered set -/
def groupSeeds (c : PoolCfg W) (h : Hash) (seeds : NSet) : M (NMap (List (Nat × W))) :=
  (h.ord 2 seeds.elems).foldlM (fun m s => do
    let b ← rd c.nBnd s
    let w ← rd c.prio s
    pure (m.insert b (pinsert (s, w) ((m.find? b).getD [])))) NMap.empty

/-- `order_new_seeds_and_update` of both classes
(include/CoMMA/Seeds_Pool.h:554-579, 719-743).  `std::map<.., std::greater<>>` is
iterated by decreasing key. -/
def Pool.orderUpdate (c : PoolCfg W) (h : Hash) (seeds : NSet) (p : Pool) : M Pool :=
  match c.kind with
  | .boundary =>
    if seeds.elems.isEmpty then pure p
    else do
      let m ← groupSeeds c h seeds
      match m.entries.reverse with
      | [] => .error .ub            -- begin()->first of an empty map
      | (mx, l) :: rest => do
        let qs ← ((mx, l) :: rest).foldlM (fun qs e => pushTo qs e.1 (firsts e.2)) p.queues
        pure ⟨qs, raiseTop p.top mx⟩
  | .neighbourhood => do
    let m ← groupSeeds c h seeds
    let qs ← m.entries.reverse.foldlM (fun qs e =>
      pushTo qs (pushLevel p.top e.1) (firsts e.2)) p.queues
    pure { p with queues := qs }

/-- `need_initialization` of both classes (include/CoMMA/Seeds_Pool.h:587-596,
749-752).  `CORNER = 3` is the default expected maximum. -/
def Pool.needInit (c : PoolCfg W) (agg : List Bool) (p : Pool) : M (Bool × Pool) := do
  let e ← p.isEmpty
  match c.kind with
  | .boundary =>
    if e then pure (true, p)
    else match p.top with
      | none => pure (true, p)
      | some t => do
        match ← highest c.nBnd agg 3 with
        | none => pure (false, p)
        | some m => if t < m then pure (true, { p with top := some m }) else pure (false, p)
  | .neighbourhood => pure (e || p.top.isNone, p)

/-- `set_top_queue` (include/CoMMA/Seeds_Pool.h:434-436) -/
def Pool.setTop (lvl : Nat) (p : Pool) : Pool := { p with top := some lvl }

end CoMMA
