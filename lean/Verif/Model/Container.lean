import Verif.Model.Graph
/-! # Coarse cells and their container
(include/CoMMA/Coarse_Cell.h, include/CoMMA/Coarse_Cell_Container.h) -/

namespace CoMMA

/-- Data members of `Coarse_Cell` (include/CoMMA/Coarse_Cell.h:71-91).  `_idx` (never read)
and the pointer to the graph are left out. -/
structure CC where
  fcs : NSet
  card : Nat
  compact : Nat
  iso : Bool
  deriving DecidableEq

/-- constructor (include/CoMMA/Coarse_Cell.h:53-65) -/
def CC.new (fcs : NSet) (compact : Nat) (iso : Bool) : CC := ⟨fcs, fcs.card, compact, iso⟩

/-- `is_connected` (include/CoMMA/Coarse_Cell.h:94) -/
def CC.isConnected (cc : CC) : Bool := decide (0 < cc.compact)

/-- Data members of `Coarse_Cell_Container` (include/CoMMA/Coarse_Cell_Container.h:76-94,
557-569) -/
structure Cont where
  ccs : NMap CC
  counter : Nat
  fc2cc : List (Option Nat)
  agg : List Bool
  nbAgg : Nat
  thresh : Nat
  delayed : List (NSet × Nat)
  singular : List Nat
  deriving DecidableEq

/-- constructor (include/CoMMA/Coarse_Cell_Container.h:59-70) -/
def Cont.new (n thresh : Nat) : Cont :=
  ⟨NMap.empty, 0, List.replicate n none, List.replicate n false, 0, thresh, [], []⟩

/-- the loop marking the fine cells of a new coarse cell
(include/CoMMA/Coarse_Cell_Container.h:491-498).  The iteration order over the
unordered set cannot matter. -/
def Cont.markAll (c : Cont) (s : NSet) : M Cont :=
  s.elems.foldlM (fun c i => do
    let o ← rd c.fc2cc i
    assertM o.isNone
    let a ← rd c.agg i
    if a then pure c
    else do
      let agg ← wr c.agg i true
      pure { c with agg := agg, nbAgg := c.nbAgg + 1 }) c

/-- the loop assigning the index of the new coarse cell
(include/CoMMA/Coarse_Cell_Container.h:527-531) -/
def Cont.assignAll (c : Cont) (s : NSet) : M Cont :=
  s.elems.foldlM (fun c i => do
    let o ← rd c.fc2cc i
    assertM o.isNone
    let f ← wr c.fc2cc i (some c.counter)
    pure { c with fc2cc := f }) c

/-- registration of an isotropic coarse cell created right now
(include/CoMMA/Coarse_Cell_Container.h:510-524) -/
def Cont.register (c : Cont) (s : NSet) (compact : Nat) (aniso : Bool) : Cont :=
  if aniso then { c with ccs := c.ccs.insert c.counter (CC.new s compact false) }
  else { c with
    ccs := c.ccs.insert c.counter (CC.new s compact true)
    singular := if s.card ≤ c.thresh then c.singular ++ [c.counter] else c.singular }

/-- `create_cc` (include/CoMMA/Coarse_Cell_Container.h:483-544).  The index returned,
`_cc_counter - 1`, is that of the new cell when creation is not delayed (with delayed
creation and an empty container the model returns 0; that value is never used). -/
def Cont.create (c : Cont) (s : NSet) (compact : Nat) (aniso delayed : Bool) : M (Nat × Cont) := do
  assertM (!aniso || !delayed)
  let c ← c.markAll s
  if delayed then
    pure (c.counter - 1, { c with delayed := c.delayed ++ [(s, compact)] })
  else do
    let c ← (c.register s compact aniso).assignAll s
    pure (c.counter, { c with counter := c.counter + 1 })

/-- `cc_create_all_delayed_cc` (include/CoMMA/Coarse_Cell_Container.h:549-554) -/
def Cont.createDelayed (c : Cont) : M Cont := do
  let c' ← c.delayed.foldlM (fun c e => do
    let (_, c) ← c.create e.1 e.2 false false
    pure c) c
  pure { c' with delayed := [] }

end CoMMA
