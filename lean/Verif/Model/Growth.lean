import Verif.Model.Search
import Verif.Model.Neighbourhood
import Verif.Model.SeedsPool
/-! # Growth of an isotropic coarse cell
(include/CoMMA/Agglomerator.h, `Agglomerator_Biconnected` and `Agglomerator_Iterative`) -/

namespace CoMMA

/-- Interface of the aspect-ratio computers (include/CoMMA/ARComputer.h:36-350): features of
a single cell (constructor `CellFeatures(index, graph)`), default features, and
`compute_and_update_features(i_fc, cc_feats, fc_of_cc, ..)`, which returns the number of
shared faces, the aspect ratio and the new features.  The ten concrete computers are in
`Verif.Model.AspectRatio`. -/
structure ARComp (W F : Type) where
  init : Nat → M F
  default : F
  compute : Nat → F → NSet → M (Nat × W × F)

/-- Everything the isotropic agglomerators read and never change
(include/CoMMA/Agglomerator.h:121-156, 865-872).  `intMax` is
`std::numeric_limits<CoMMAIntType>::max()`; priority weights are those of the pool, as
in `agglomerate_one_level`. -/
structure IsoEnv (W F : Type) where
  g : Graph W
  h : Hash
  pool : PoolCfg W
  ar : ARComp W F
  nbh : NbhKind
  fcIter : Nat
  goalCard : Nat
  minCard : Nat
  maxCard : Nat
  intMax : Int

variable {W F : Type} [Num W]

/-- local variables of `compute_best_fc_to_add`: reference cell for the order, best aspect
ratio, chosen cell, best number of faces, number of faces of the chosen cell and its
features (include/CoMMA/Agglomerator.h:1506-1515, 1682-1684) -/
structure BestSt (W F : Type) where
  argF : Nat
  minAr : W
  arg : Nat
  ref : Nat
  out : Nat
  feats : F

/-- the updates done when a candidate is taken (include/CoMMA/Agglomerator.h:1556-1560,
1566-1569, 1576-1580 and 1756-1765, 1770-1778, 1784-1793) -/
def BestSt.take (s : BestSt W F) (i faces out : Nat) (ar : W) (f : F) : BestSt W F :=
  { s with argF := i, minAr := ar, arg := i, ref := faces, out := out, feats := f }

/-- the decision for one candidate `i` with `faces` faces, `out` faces to report, aspect
ratio `ar` and features `f` (include/CoMMA/Agglomerator.h:1538-1582 and 1738-1795);
`is_order_primary` is the constant `false` (include/CoMMA/Agglomerator.h:1229) -/
def bestStep (d : NMap Nat) (s : BestSt W F) (i faces out : Nat) (ar : W) (f : F) : M (BestSt W F) := do
  let order ← d.at! i
  if s.ref ≤ faces then
    if faces = s.ref then do
      let o ← d.at! s.argF
      if order ≤ o then
        if order = o then
          pure (if Num.lt ar s.minAr && decide (0 < faces) then s.take i faces out ar f else s)
        else pure (s.take i faces out ar f)
      else pure s
    else pure (s.take i faces out ar f)
  else pure s

/-- one turn of the loop of `Agglomerator_Biconnected::compute_best_fc_to_add`
(include/CoMMA/Agglomerator.h:1517-1583) -/
def bicStep (E : IsoEnv W F) (d : NMap Nat) (feats : F) (cc : NSet) (s : BestSt W F) (i : Nat) : M (BestSt W F) := do
  let (faces, ar, f) ← E.ar.compute i feats cc
  bestStep d s i faces faces ar f

/-- `Agglomerator_Biconnected::compute_best_fc_to_add`
(include/CoMMA/Agglomerator.h:1497-1584): chosen cell, faces in common, features -/
def bicBest (E : IsoEnv W F) (cands : List Nat) (d : NMap Nat) (feats : F) (cc : NSet) : M (Nat × Nat × F) := do
  let a0 ← rd cands 0
  let s ← cands.foldlM (bicStep E d feats cc) ⟨a0, Num.lmax, 0, 0, 0, E.ar.default⟩
  pure (s.arg, s.out, s.feats)

/-- what the recursive call of the iterative algorithm changes for a candidate: number of
faces and aspect ratio (include/CoMMA/Agglomerator.h:1712-1735); `cur_min_ar` is never
assigned after its initialisation to 0 -/
def iterRefine (inner : Nat) (ar : W) (r : Nat × Nat × F) : Nat × W :=
  if inner < r.2.1 then (r.2.1, ar)
  else if r.2.1 = inner && Num.lt (Num.ofNat 0) ar then (inner, Num.ofNat 0)
  else (inner, ar)

/-- `Agglomerator_Iterative::compute_best_fc_to_add`
(include/CoMMA/Agglomerator.h:1669-1797); the first argument is `fc_iter - 1` -/
def iterBest (E : IsoEnv W F) (d : NMap Nat) : Nat → Nbh W → F → NSet → M (Nat × Nat × F)
  | 0, nb, feats, cc => do
    let s ← nb.cands.foldlM (fun s i => do
      let (inner, ar, f) ← E.ar.compute i feats cc
      let row ← E.g.neighs i
      let _ ← nb.update E.pool.prio i row
      bestStep d s i inner inner ar f) ⟨0, Num.lmax, 0, 0, 0, E.ar.default⟩
    pure (s.arg, s.out, s.feats)
  | k + 1, nb, feats, cc => do
    let s ← nb.cands.foldlM (fun s i => do
      let (inner, ar, f) ← E.ar.compute i feats cc
      let row ← E.g.neighs i
      let nb' ← nb.update E.pool.prio i row
      let r ← iterBest E d k nb' f (cc.insert i)
      let e := iterRefine inner ar r
      bestStep d s i e.1 inner e.2 f) ⟨0, Num.lmax, 0, 0, 0, E.ar.default⟩
    pure (s.arg, s.out, s.feats)

/-- the virtual call: `Agglomerator_Biconnected` if `fc_choice_iter` is 1, else
`Agglomerator_Iterative` (include/CoMMA/CoMMA.h:405-429,
include/CoMMA/Agglomerator.h:1349-1360) -/
def best (E : IsoEnv W F) (fcIter : Nat) (nb : Nbh W) (d : NMap Nat) (feats : F) (cc : NSet) : M (Nat × Nat × F) :=
  if E.fcIter ≤ 1 then bicBest E nb.cands d feats cc
  else iterBest E d (fcIter - 1) nb feats cc

/-- local variables of the growth loop (include/CoMMA/Agglomerator.h:1284-1331) -/
structure GrowSt (W F : Type) where
  size : Nat
  tmp : NSet
  feats : F
  dict : NMap (NSet × NMap Nat)
  minExt : Int
  maxCompact : Nat
  arg : Nat
  ext : Int
  nb : Nbh W
  d : NMap Nat
  compact : NMap Nat
  next : Nat

/-- incremental compactness (include/CoMMA/Agglomerator.h:1371-1381) -/
def growCompact (tmp : NSet) (next : Nat) (row : List Nat) (compact : NMap Nat) : NMap Nat :=
  let (k, m) := row.foldl (fun (k, m) n =>
    if tmp.has n then (k + 1, m.insert n ((m.find? n).getD 0 + 1)) else (k, m)) (0, compact)
  m.insert next k

/-- choice of the best size so far: new values of `max_compact`, `min_external_faces` and
`arg_min_card` (include/CoMMA/Agglomerator.h:1397-1410) -/
def growChoose (goal size curCompact : Nat) (ext : Int) (maxCompact : Nat) (minExt : Int) (arg : Nat) :
    Nat × Int × Nat :=
  if maxCompact < curCompact then (curCompact, ext, size)
  else if curCompact = maxCompact then
    if decide (ext < minExt) || (decide (ext = minExt) && decide (arg ≠ goal)) then (maxCompact, ext, size)
    else (maxCompact, minExt, arg)
  else (maxCompact, minExt, arg)

/-- storage of an eligible coarse cell (include/CoMMA/Agglomerator.h:1395-1420) -/
def growStore (E : IsoEnv W F) (maxInd curCompact : Nat) (s : GrowSt W F) : GrowSt W F :=
  if E.minCard ≤ s.size ∨ s.size = maxInd then
    let r := growChoose E.goalCard s.size curCompact s.ext s.maxCompact s.minExt s.arg
    { s with
      maxCompact := r.1, minExt := r.2.1, arg := r.2.2
      dict := s.dict.insert s.size (s.tmp, NMap.empty.insert s.next ((s.d.find? s.next).getD 0)) }
  else s

/-- body of the growth loop (include/CoMMA/Agglomerator.h:1335-1426) -/
def growStep (E : IsoEnv W F) (maxInd : Nat) (s : GrowSt W F) : M (GrowSt W F) := do
  let row ← E.g.neighs s.next
  let nb ← s.nb.update E.pool.prio s.next row
  let r ← best E (min (maxInd - s.size) E.fcIter) nb s.d s.feats s.tmp
  let next := r.1
  let nn ← E.g.nbNeighs next
  let nbnd ← rd E.g.nBnd next
  let row' ← E.g.neighs next
  let tmp := s.tmp.insert next
  let compact := growCompact tmp next row' s.compact
  let s1 := growStore E maxInd (minValue compact)
    { s with nb := nb, size := s.size + 1, tmp := tmp, compact := compact, next := next
             ext := s.ext + ((nn : Int) + nbnd - 1 - 2 * r.2.1) }
  pure { s1 with feats := r.2.2, d := s1.d.erase next }

/-- the growth loop (include/CoMMA/Agglomerator.h:1334-1427) -/
def growLoop (E : IsoEnv W F) (maxInd : Nat) : Nat → GrowSt W F → M (GrowSt W F)
  | fuel, s =>
    if s.size < maxInd then
      match fuel with
      | 0 => .error .fuel
      | fuel + 1 => do
        let s ← growStep E maxInd s
        growLoop E maxInd fuel s
    else pure s

/-- cells put back in the dictionary when a smaller coarse cell is chosen
(include/CoMMA/Agglomerator.h:1434-1441) -/
def putBack (dict : NMap (NSet × NMap Nat)) (arg maxInd : Nat) (d : NMap Nat) : NMap Nat :=
  (List.range' (arg + 1) (maxInd - arg)).foldl (fun d i => d.merge ((dict.find? i).getD (NSet.empty, NMap.empty)).2) d

/-- neighbours of the new coarse cell grouped by order, and those without order
(include/CoMMA/Agglomerator.h:1452-1462).  Grouping is by sets, so the iteration order
over the unordered set cannot matter. -/
def groupByOrder (d : NMap Nat) (neighs : NSet) : NMap NSet × NSet :=
  neighs.elems.foldl (fun (m, nf) x =>
    match d.find? x with
    | some o => (m.insert o (((m.find? o).getD NSet.empty).insert x), nf)
    | none => (m, nf.insert x)) (NMap.empty, NSet.empty)

/-- update of the seeds pool (include/CoMMA/Agglomerator.h:1463-1467) -/
def pushNeighs (E : IsoEnv W F) (groups : NMap NSet × NSet) (p : Pool) : M Pool := do
  let p ← groups.1.entries.foldlM (fun p e =>
    if e.2.card = 0 then pure p else p.orderUpdate E.pool E.h e.2) p
  if groups.2.card = 0 then pure p else p.orderUpdate E.pool E.h groups.2

/-- initial state of the growth (include/CoMMA/Agglomerator.h:1284-1331) -/
def growInit (E : IsoEnv W F) (seed : Nat) (d : NMap Nat) : M (GrowSt W F) := do
  let feats ← E.ar.init seed
  let nn ← E.g.nbNeighs seed
  let nbnd ← rd E.g.nBnd seed
  pure ⟨1, NSet.single seed, feats, NMap.empty, E.intMax, 0, E.minCard, (nn : Int) + nbnd - 1,
    Nbh.new E.nbh E.g.dim d.keySet, d, NMap.empty.insert seed 0, seed⟩

/-- the last branch of `choose_optimal_cc_and_update_seeds_pool`
(include/CoMMA/Agglomerator.h:1278-1472): set, compactness, pool -/
def grow (E : IsoEnv W F) (agg : List Bool) (p : Pool) (seed : Nat) (d : NMap Nat) : M (NSet × Nat × Pool) := do
  let maxInd := min E.maxCard (d.size + 1)
  let s0 ← growInit E seed d
  let s ← growLoop E maxInd maxInd s0
  let cc := ((s.dict.find? s.arg).getD (NSet.empty, NMap.empty)).1
  let d := putBack s.dict s.arg maxInd s.d
  let neighs ← E.g.neighbourhoodOf E.h cc agg
  let p ← pushNeighs E (groupByOrder d neighs) p
  assertM (decide (s.arg = cc.card))
  pure (cc, s.maxCompact, p)

/-- `max_order_of_neighbourhood` (include/CoMMA/Agglomerator.h:1244-1245);
`_min_neighbourhood` is 2 in 2D and 3 otherwise (include/CoMMA/Agglomerator.h:83-87) -/
def maxOrder (E : IsoEnv W F) : Nat :=
  max (if E.g.dim = 2 then 2 else 3) (E.maxCard / E.g.dim)

/-- `choose_optimal_cc_and_update_seeds_pool` (include/CoMMA/Agglomerator.h:1224-1474) -/
def chooseOptimal (E : IsoEnv W F) (agg : List Bool) (p : Pool) (seed : Nat) : M (NSet × Nat × Pool) := do
  assertM (decide (1 < E.goalCard))
  let r ← E.g.neighbourhood E.h (NSet.single seed) (maxOrder E) E.maxCard agg
  let d := r.2
  if d.size = 0 then pure (NSet.single seed, 0, p)
  else if d.size + 1 < E.goalCard then do
    let cc := (NSet.single seed).insertMany d.keys
    let k ← E.g.minCompactness cc
    pure (cc, k, p)
  else grow E agg p seed d

end CoMMA
