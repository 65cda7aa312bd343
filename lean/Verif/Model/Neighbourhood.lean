import Verif.Model.Graph
import Verif.Model.Pairs
/-! # First-order neighbourhoods (include/CoMMA/Neighbourhood.h) -/

namespace CoMMA

/-- `CoMMANeighbourhoodT`: which subclass of `Neighbourhood` is created
(include/CoMMA/Neighbourhood.h:427-596) -/
inductive NbhKind where
  | extended
  | pureFront
  deriving DecidableEq, Repr

/-- Data members of `Neighbourhood` and of its subclasses
(include/CoMMA/Neighbourhood.h:125-145, 402-411); `_weights` is passed to `update`. -/
structure Nbh (W : Type) where
  kind : NbhKind
  dim : Nat
  allowed : NSet
  sFc : NSet
  cands : List Nat
  queues : List (List (Nat × W))

variable {W : Type} [Num W]

/-- constructors (include/CoMMA/Neighbourhood.h:71-80, 301-311) -/
def Nbh.new (kind : NbhKind) (dim : Nat) (allowed : NSet) : Nbh W :=
  ⟨kind, dim, allowed, NSet.empty, [], []⟩

/-- the neighbours `x` of the row that satisfy `p`, as an ordered set
(include/CoMMA/Neighbourhood.h:233-245, 342-350) -/
def pickRow (weights : List W) (p : Nat → Bool) (row : List Nat) : M (List (Nat × W)) :=
  row.foldlM (fun s x =>
    if p x then do
      let w ← rd weights x
      pure (pinsert (x, w) s)
    else pure s) []

/-- `Neighbourhood_Extended::update_it` (include/CoMMA/Neighbourhood.h:221-250) -/
def Nbh.updateExt (nb : Nbh W) (weights : List W) (newFc : Nat) (row : List Nat) : M (Nbh W) := do
  let sFc := nb.sFc.insert newFc
  let cands := nb.cands.erase newFc
  let s ← pickRow weights (fun x => !cands.contains x && !sFc.has x && nb.allowed.has x) row
  pure { nb with sFc := sFc, cands := cands ++ firsts s }

/-- the search for a non-empty front, alternating from both ends
(include/CoMMA/Neighbourhood.h:371-386).  Decrementing `cur_back` at 0 wraps around in
C++; the model reports it as undefined behaviour. -/
def pfSearch (qs : List (List (Nat × W))) : Nat → Nat → Nat → M (List (Nat × W))
  | fuel, front, back =>
    if front ≤ back then
      match fuel with
      | 0 => .error .fuel
      | fuel + 1 => do
        let q ← rd qs front
        if !q.isEmpty then pure q
        else do
          let q' ← rd qs back
          if !q'.isEmpty then pure q'
          else if back = 0 then .error .ub
          else pfSearch qs fuel (front + 1) (back - 1)
    else pure []

/-- `Neighbourhood_Pure_Front::update_it` (include/CoMMA/Neighbourhood.h:320-389) -/
def Nbh.updatePF (nb : Nbh W) (weights : List W) (newFc : Nat) (row : List Nat) : M (Nbh W) := do
  let sFc := nb.sFc.insert newFc
  let old := nb.queues.map (fun q => q.eraseP (fun p => p.1 == newFc))
  let cur ← pickRow weights (fun x => !sFc.has x && nb.allowed.has x) row
  let qs := cur :: old
  if qs.length ≤ nb.dim then
    let all := old.foldl (fun s q => q.foldl (fun s p => pinsert p s) s) cur
    pure { nb with sFc := sFc, queues := qs, cands := firsts all }
  else do
    let q ← pfSearch qs qs.length 0 (qs.length - 1)
    pure { nb with sFc := sFc, queues := qs, cands := firsts q }

/-- `update_it` (include/CoMMA/Neighbourhood.h:114-118) -/
def Nbh.update (nb : Nbh W) (weights : List W) (newFc : Nat) (row : List Nat) : M (Nbh W) :=
  match nb.kind with
  | .extended => nb.updateExt weights newFc row
  | .pureFront => nb.updatePF weights newFc row

end CoMMA
