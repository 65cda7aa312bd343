import Verif.Model.TopLevel
/-! # Iteration orders that change during a call

The order in which an unordered container is iterated depends on the history of the container, not
only on its contents.  Here each iteration has an order of its own: `Ω t` is used for the
iteration number `t` of the call.  The functions that go through an unordered container are those of
the model, called with the order of the moment; those that call them are written again, with a
counter of the iterations done so far.  Everything else is the same as in `Verif.Model.TopLevel`. -/

namespace CoMMA

/-- a computation that knows how many iterations over unordered containers have been done (for instance those at
include/CoMMA/Dual_Graph.h:929, 947); models no lines of its own -/
abbrev HM (α : Type) := StateT Nat M α

variable {W F : Type} [Num W]

/-- a new iteration over an unordered container, with its order (for instance include/CoMMA/Dual_Graph.h:947) -/
def iteration {α : Type} (Ω : Nat → Hash) (f : Hash → M α) : HM α := fun t => do
  let r ← f (Ω t)
  pure (r, t + 1)

/-- a computation without iteration over an unordered container; models no lines of its own (file and lines are cited
where it is used) -/
def plainly {α : Type} (m : M α) : HM α := fun t => do
  let r ← m
  pure (r, t)

/-- the loop of `compute_neighbourhood_of_cc` (include/CoMMA/Dual_Graph.h:931-989) -/
def nbhLoopH (Ω : Nat → Hash) (g : Graph W) (agg : List Bool) (nbOrder maxCard : Nat) : Nat → NbhState → HM NbhState
  | fuel, s =>
    if nbhGo nbOrder maxCard s then
      match fuel with
      | 0 => plainly (.error .fuel)
      | fuel + 1 => do
        let cur ← iteration Ω (fun h => g.nbhLayer h (s.d.merge s.prev) s.prev agg s.iOrder)
        if cur.entries.isEmpty then pure { s with d := s.d.merge s.prev }
        else nbhLoopH Ω g agg nbOrder maxCard fuel ⟨s.iOrder + 1, s.d.merge s.prev, cur⟩
    else pure s

/-- `compute_neighbourhood_of_cc` (include/CoMMA/Dual_Graph.h:917-1006) -/
def neighbourhoodH (Ω : Nat → Hash) (g : Graph W) (seeds : NSet) (nbOrder maxCard : Nat) (agg : List Bool) :
    HM (Nat × NMap Nat) := do
  plainly (assertM (decide (1 < maxCard)))
  let s ← nbhLoopH Ω g agg nbOrder maxCard (g.nbC + 1)
    ⟨1, NMap.empty, seeds.elems.foldl (fun m i => m.insert i 0) NMap.empty⟩
  pure (s.iOrder, seeds.elems.foldl (fun m i => m.erase i) (s.d.merge s.prev))

/-- one turn of the loop of `Agglomerator_Biconnected::compute_best_fc_to_add`
(include/CoMMA/Agglomerator.h:1517-1583); `A` is the computer of aspect ratios with a given order -/
def bicStepH (Ω : Nat → Hash) (A : Hash → ARComp W F) (d : NMap Nat) (feats : F) (cc : NSet) (s : BestSt W F) (i : Nat) :
    HM (BestSt W F) := do
  let r ← iteration Ω (fun h => (A h).compute i feats cc)
  plainly (bestStep d s i r.1 r.1 r.2.1 r.2.2)

/-- `Agglomerator_Biconnected::compute_best_fc_to_add` (include/CoMMA/Agglomerator.h:1497-1584) -/
def bicBestH (Ω : Nat → Hash) (A : Hash → ARComp W F) (E : IsoEnv W F) (cands : List Nat) (d : NMap Nat) (feats : F)
    (cc : NSet) : HM (Nat × Nat × F) := do
  let a0 ← plainly (rd cands 0)
  let s ← cands.foldlM (bicStepH Ω A d feats cc) ⟨a0, Num.lmax, 0, 0, 0, E.ar.default⟩
  pure (s.arg, s.out, s.feats)

/-- `Agglomerator_Iterative::compute_best_fc_to_add` (include/CoMMA/Agglomerator.h:1669-1797) -/
def iterBestH (Ω : Nat → Hash) (A : Hash → ARComp W F) (E : IsoEnv W F) (d : NMap Nat) :
    Nat → Nbh W → F → NSet → HM (Nat × Nat × F)
  | 0, nb, feats, cc => do
    let s ← nb.cands.foldlM (fun s i => do
      let r ← iteration Ω (fun h => (A h).compute i feats cc)
      let row ← plainly (E.g.neighs i)
      let _ ← plainly (nb.update E.pool.prio i row)
      plainly (bestStep d s i r.1 r.1 r.2.1 r.2.2)) ⟨0, Num.lmax, 0, 0, 0, E.ar.default⟩
    pure (s.arg, s.out, s.feats)
  | k + 1, nb, feats, cc => do
    let s ← nb.cands.foldlM (fun s i => do
      let r ← iteration Ω (fun h => (A h).compute i feats cc)
      let row ← plainly (E.g.neighs i)
      let nb' ← plainly (nb.update E.pool.prio i row)
      let q ← iterBestH Ω A E d k nb' r.2.2 (cc.insert i)
      plainly (bestStep d s i (iterRefine r.1 r.2.1 q).1 r.1 (iterRefine r.1 r.2.1 q).2 r.2.2))
      ⟨0, Num.lmax, 0, 0, 0, E.ar.default⟩
    pure (s.arg, s.out, s.feats)

/-- the virtual call (include/CoMMA/CoMMA.h:405-429, include/CoMMA/Agglomerator.h:1349-1360) -/
def bestH (Ω : Nat → Hash) (A : Hash → ARComp W F) (E : IsoEnv W F) (fcIter : Nat) (nb : Nbh W) (d : NMap Nat) (feats : F)
    (cc : NSet) : HM (Nat × Nat × F) :=
  if E.fcIter ≤ 1 then bicBestH Ω A E nb.cands d feats cc
  else iterBestH Ω A E d (fcIter - 1) nb feats cc

/-- end of the body of the growth loop, once the next cell is chosen
(include/CoMMA/Agglomerator.h:1361-1426) -/
def growWith (E : IsoEnv W F) (maxInd : Nat) (s : GrowSt W F) (nb : Nbh W) (r : Nat × Nat × F) : M (GrowSt W F) := do
  let next := r.1
  let nn ← E.g.nbNeighs next
  let nbnd ← rd E.g.nBnd next
  let row' ← E.g.neighs next
  let tmp := s.tmp.insert next
  let compact := growCompact tmp next row' s.compact
  let s1 := growStore E maxInd (minValue compact)
    { s with nb := nb, size := s.size + 1, tmp := tmp, compact := compact, next := next
             ext := s.ext + ((nn : Int) + nbnd - 1 - 2 * r.2.1) }
  pure { s1 with feats := r.2.2, d := s1.d.erase next }

/-- body of the growth loop (include/CoMMA/Agglomerator.h:1335-1426) -/
def growStepH (Ω : Nat → Hash) (A : Hash → ARComp W F) (E : IsoEnv W F) (maxInd : Nat) (s : GrowSt W F) :
    HM (GrowSt W F) := do
  let row ← plainly (E.g.neighs s.next)
  let nb ← plainly (s.nb.update E.pool.prio s.next row)
  let r ← bestH Ω A E (min (maxInd - s.size) E.fcIter) nb s.d s.feats s.tmp
  plainly (growWith E maxInd s nb r)

/-- the growth loop (include/CoMMA/Agglomerator.h:1334-1427) -/
def growLoopH (Ω : Nat → Hash) (A : Hash → ARComp W F) (E : IsoEnv W F) (maxInd : Nat) : Nat → GrowSt W F → HM (GrowSt W F)
  | fuel, s =>
    if s.size < maxInd then
      match fuel with
      | 0 => plainly (.error .fuel)
      | fuel + 1 => do
        let s ← growStepH Ω A E maxInd s
        growLoopH Ω A E maxInd fuel s
    else pure s

/-- an update of the seeds pool (include/CoMMA/Seeds_Pool.h:554-579, 719-743), unless there is no seed -/
def updateH (Ω : Nat → Hash) (E : IsoEnv W F) (p : Pool) (s : NSet) : HM Pool :=
  if s.card = 0 then pure p else iteration Ω (fun h => p.orderUpdate E.pool h s)

/-- update of the seeds pool (include/CoMMA/Agglomerator.h:1463-1467) -/
def pushNeighsH (Ω : Nat → Hash) (E : IsoEnv W F) (groups : NMap NSet × NSet) (p : Pool) : HM Pool := do
  let p ← groups.1.entries.foldlM (fun p e => updateH Ω E p e.2) p
  updateH Ω E p groups.2

/-- the last branch of `choose_optimal_cc_and_update_seeds_pool`
(include/CoMMA/Agglomerator.h:1278-1472) -/
def growH (Ω : Nat → Hash) (A : Hash → ARComp W F) (E : IsoEnv W F) (agg : List Bool) (p : Pool) (seed : Nat)
    (d : NMap Nat) : HM (NSet × Nat × Pool) := do
  let maxInd := min E.maxCard (d.size + 1)
  let s0 ← plainly (growInit E seed d)
  let s ← growLoopH Ω A E maxInd maxInd s0
  let cc := ((s.dict.find? s.arg).getD (NSet.empty, NMap.empty)).1
  let d := putBack s.dict s.arg maxInd s.d
  let neighs ← iteration Ω (fun h => E.g.neighbourhoodOf h cc agg)
  let p ← pushNeighsH Ω E (groupByOrder d neighs) p
  plainly (assertM (decide (s.arg = cc.card)))
  pure (cc, s.maxCompact, p)

/-- `choose_optimal_cc_and_update_seeds_pool` (include/CoMMA/Agglomerator.h:1224-1474) -/
def chooseOptimalH (Ω : Nat → Hash) (A : Hash → ARComp W F) (E : IsoEnv W F) (agg : List Bool) (p : Pool) (seed : Nat) :
    HM (NSet × Nat × Pool) := do
  plainly (assertM (decide (1 < E.goalCard)))
  let r ← neighbourhoodH Ω E.g (NSet.single seed) (maxOrder E) E.maxCard agg
  let d := r.2
  if d.size = 0 then pure (NSet.single seed, 0, p)
  else if d.size + 1 < E.goalCard then do
    let cc := (NSet.single seed).insertMany d.keys
    let k ← plainly (E.g.minCompactness cc)
    pure (cc, k, p)
  else growH Ω A E agg p seed d

/-- one turn of the isotropic loop (include/CoMMA/Agglomerator.h:1104-1126) -/
def isoStepH (Ω : Nat → Hash) (A : Hash → ARComp W F) (E : IsoEnv W F) (c : Cont) (p : Pool) : HM (Cont × Pool) := do
  let r ← plainly (p.choose E.pool c.agg)
  plainly (assertM r.1.isSome)
  let seed ← plainly (valueM r.1)
  let o ← chooseOptimalH Ω A E c.agg r.2 seed
  let k ← plainly (c.create o.1 o.2.1 false false)
  pure (k.2, o.2.2)

/-- the while loop (include/CoMMA/Agglomerator.h:1103-1127) -/
def isoLoopH (Ω : Nat → Hash) (A : Hash → ARComp W F) (E : IsoEnv W F) : Nat → Cont → Pool → HM (Cont × Pool)
  | fuel, c, p =>
    if c.nbAgg < E.g.nbC then
      match fuel with
      | 0 => plainly (.error .fuel)
      | fuel + 1 => do
        let r ← isoStepH Ω A E c p
        isoLoopH Ω A E fuel r.1 r.2
    else pure (c, p)

/-- `Agglomerator_Isotropic::agglomerate_one_level` without the correction
(include/CoMMA/Agglomerator.h:1099-1131) -/
def isoRunH (Ω : Nat → Hash) (A : Hash → ARComp W F) (E : IsoEnv W F) (c : Cont) (p : Pool) : HM (Cont × Pool) := do
  let r ← isoLoopH Ω A E E.g.nbC c p
  let c ← plainly r.1.createDelayed
  pure (c, r.2)

/-- end of `correct` (include/CoMMA/Coarse_Cell_Container.h:229-255) -/
def afterCorrection (r : Cont × NSet) : M Cont :=
  match r.2.elems with
  | [] => pure r.1
  | first :: _ => renumber r.1 first

/-- `correct` (include/CoMMA/Coarse_Cell_Container.h:164-255) -/
def correctH (Ω : Nat → Hash) (g : Graph W) (c : Cont) : HM Cont := do
  let r ← c.singular.foldlM (fun a old => iteration Ω (fun h => correctStep g h a old)) (c, NSet.empty)
  plainly (afterCorrection r)

/-- the lines (include/CoMMA/Agglomerator.h:245-284); `tag_anisotropic_cells` goes once through the
compliant cells -/
def fineLinesH (Ω : Nat → Hash) (P : Platform) (a : Args W) (o : Outs) : HM (List (List Nat)) :=
  iteration Ω (fun h => fineLines { P with hash := h } a o)

/-- anisotropic phase (include/CoMMA/CoMMA.h:351-400) -/
def anisoPhaseH (Ω : Nat → Hash) (P : Platform) (a : Args W) (o : Outs) (c : PoolCfg W) :
    HM (Cont × Pool × List Nat × List Nat) :=
  if anisoOn a o then do
    let l ← fineLinesH Ω P a o
    let r ← plainly (agglomLines (graphOf a) c ⟨a.oddLine, effMaxCells a⟩ l
      (Cont.new (graphOf a).nbC (effThresh a).toNat) Pool.new)
    pure (r.1, r.2.1, exportLines r.2.2)
  else do
    let p ← plainly (Pool.new.initialize c)
    pure (Cont.new (graphOf a).nbC (effThresh a).toNat, p, o.linesIdx, o.lines)

/-- isotropic phase (include/CoMMA/CoMMA.h:402-433) -/
def isoPhaseH (Ω : Nat → Hash) (P : Platform) (a : Args W) (c : PoolCfg W) (k : Cont) (p : Pool) : HM Cont := do
  plainly (checkArg (decide (a.aspect ≠ .unknown)))
  let r ← isoRunH Ω (fun h => arOf (graphOf a) h a.aspect) (isoEnvOf P a c) k p
  if a.correction then correctH Ω (graphOf a) r.1 else pure r.1

/-- the two phases and the final copy (include/CoMMA/CoMMA.h:351-443) -/
def runPhasesH (Ω : Nat → Hash) (P : Platform) (a : Args W) (o : Outs) (c : PoolCfg W) : Outs × M Unit :=
  match anisoPhaseH Ω P a o c 0 with
  | .error e => (o, .error e)
  | .ok ((k, p, idx, lines), t) =>
    match isoPhaseH Ω P a c k p t with
    | .error e => (⟨o.fcToCc, idx, lines⟩, .error e)
    | .ok (k', _) =>
      match fillFcToCc k' with
      | .error e => (⟨filledBefore k', idx, lines⟩, .error e)
      | .ok f => (⟨f, idx, lines⟩, .ok ())

/-- `agglomerate_one_level` (include/CoMMA/CoMMA.h:137-444) with an order of its own for each
iteration over an unordered container -/
def agglomerateHistory (Ω : Nat → Hash) (P : Platform) (a : Args W) (o : Outs) : Outs × M Unit :=
  match checkAll P a o with
  | .error e => (o, .error e)
  | .ok c => runPhasesH Ω P a o c

end CoMMA
