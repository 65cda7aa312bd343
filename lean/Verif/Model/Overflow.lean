import Verif.Model.TopLevel
/-! # The same functions with bounded integers

The functions of the other files compute with numbers of any size.  Here those that compute
values of the signed type `CoMMAIntType` check first that every one of these values fits:
signed overflow, and a conversion from a size to `CoMMAIntType` that changes the value, are
reported as undefined behaviour.  Everything else is the function it is built from.
Values of the unsigned type `CoMMAIndexType` are left out: they are indices of elements, and
numbers of elements, of vectors that are in memory. -/

namespace CoMMA

variable {W F : Type} [Num W]

/-- all the values are between the limits of `CoMMAIntType` (config_files/CoMMAConfig.h.in:42), of which `mx` is the largest value -/
def fits (mx : Int) (l : List Int) : M Unit :=
  if l.all (fun x => decide (-mx - 1 ≤ x) && decide (x ≤ mx)) then .ok () else .error .ub

/-! ## Aspect-ratio computers -/

/-- `get_nb_of_neighbours` and `get_total_n_faces` (include/CoMMA/Dual_Graph.h:156-159,
643-645) -/
def faceInts (g : Graph W) (i : Nat) : M (List Int) := do
  let b ← rd g.nBnd i
  let n ← g.nbNeighs i
  pure [(n : Int), (b : Int) + n]

/-- values of `_external_facets` (include/CoMMA/ARComputer.h:317-324) -/
def facetInts (uf : Bool) (facets : NMap Int) (shared : NSet) : M (List Int) :=
  if uf then shared.elems.mapM (fun x => do
    let v ← facets.at! x
    pure (v - 1))
  else pure []

/-- integers computed by `update_basic_features` (include/CoMMA/ARComputer.h:298-325).  The
number of faces is counted whether the features ask for it or not. -/
def basicInts (uf : Bool) (g : Graph W) (i : Nat) (f : Feats W) (cc : NSet) : M (List Int) := do
  let s ← sharedFaces g i cc
  let l ← faceInts g i
  let n ← g.totalFaces i
  let m ← facetInts uf f.facets s.2
  pure ((s.2.card : Int) :: ((f.nInt : Int) + s.2.card) :: ((n : Int) - s.2.card) :: (l ++ m))

/-- the aspect-ratio computers (include/CoMMA/ARComputer.h:103-118, 298-325) -/
def arOfC (mx : Int) (g : Graph W) (h : Hash) (kind : ARKind) : ARComp W (Feats W) where
  init i := do
    let l ← faceInts g i
    fits mx l
    (arOf g h kind).init i
  default := (arOf g h kind).default
  compute i f cc := do
    let l ← basicInts (decide (kind = .maxOverMinBary)) g i f cc
    fits mx l
    (arOf g h kind).compute i f cc

/-! ## Compactness and neighbourhoods -/

/-- values of `compute_fc_compactness_inside_a_cc` (include/CoMMA/Dual_Graph.h:286-305) -/
def compactnessInts (g : Graph W) (s : NSet) : M (List Int) :=
  s.elems.mapM (fun i => do
    let row ← g.neighs i
    pure ((row.countP (fun n => s.has n) : Nat) : Int))

/-- `compute_min_fc_compactness_inside_a_cc` (include/CoMMA/Dual_Graph.h:258-278) -/
def minCompactnessC (mx : Int) (g : Graph W) (s : NSet) : M Nat := do
  let l ← compactnessInts g s
  fits mx l
  g.minCompactness s

/-- the while loop of `compute_neighbourhood_of_cc` (include/CoMMA/Dual_Graph.h:933-989) -/
def nbhLoopC (mx : Int) (g : Graph W) (h : Hash) (agg : List Bool) (nbOrder maxCard : Nat) :
    Nat → NbhState → M NbhState
  | fuel, s => do
    fits mx [(nbOrder : Int) + 1, ((s.d.size + s.prev.size : Nat) : Int)]
    if nbhGo nbOrder maxCard s then
      match fuel with
      | 0 => .error .fuel
      | fuel + 1 => do
        let d := s.d.merge s.prev
        let cur ← g.nbhLayer h d s.prev agg s.iOrder
        if cur.entries.isEmpty then pure { s with d := d }
        else do
          fits mx [(s.iOrder : Int) + 1]
          nbhLoopC mx g h agg nbOrder maxCard fuel ⟨s.iOrder + 1, d, cur⟩
    else pure s

/-- `compute_neighbourhood_of_cc` (include/CoMMA/Dual_Graph.h:917-1006) -/
def neighbourhoodC (mx : Int) (g : Graph W) (h : Hash) (seeds : NSet) (nbOrder maxCard : Nat) (agg : List Bool) :
    M (Nat × NMap Nat) := do
  assertM (decide (1 < maxCard))
  let s ← nbhLoopC mx g h agg nbOrder maxCard (g.nbC + 1)
    ⟨1, NMap.empty, seeds.elems.foldl (fun m i => m.insert i 0) NMap.empty⟩
  let d := s.d.merge s.prev
  pure (s.iOrder, seeds.elems.foldl (fun m i => m.erase i) d)

/-! ## Growth -/

/-- the counters of the incremental compactness (include/CoMMA/Agglomerator.h:1371-1381) -/
def compactInts (tmp : NSet) (row : List Nat) (compact : NMap Nat) : List Int :=
  (row.foldl (fun (a : Nat × NMap Nat × List Int) n =>
    if tmp.has n then
      (a.1 + 1, a.2.1.insert n ((a.2.1.find? n).getD 0 + 1),
        a.2.2 ++ [(a.1 : Int) + 1, ((a.2.1.find? n).getD 0 : Int) + 1])
    else a) (0, compact, [])).2.2

/-- integers computed when a cell is added (include/CoMMA/Agglomerator.h:1350, 1362-1368) -/
def growInts (maxInd size nn nbnd faces : Nat) (ext : Int) : List Int :=
  [(maxInd : Int) - size, nn, (nn : Int) + nbnd, (nn : Int) + nbnd - 1, 2 * (faces : Int),
    (nn : Int) + nbnd - 1 - 2 * faces, ext + ((nn : Int) + nbnd - 1 - 2 * faces), (size : Int) + 1]

/-- body of the growth loop (include/CoMMA/Agglomerator.h:1335-1426) -/
def growStepC (mx : Int) (E : IsoEnv W F) (maxInd : Nat) (s : GrowSt W F) : M (GrowSt W F) := do
  let row ← E.g.neighs s.next
  let nb ← s.nb.update E.pool.prio s.next row
  let r ← best E (min (maxInd - s.size) E.fcIter) nb s.d s.feats s.tmp
  let next := r.1
  let nn ← E.g.nbNeighs next
  let nbnd ← rd E.g.nBnd next
  let row' ← E.g.neighs next
  let tmp := s.tmp.insert next
  fits mx (growInts maxInd s.size nn nbnd r.2.1 s.ext)
  fits mx (compactInts tmp row' s.compact)
  let compact := growCompact tmp next row' s.compact
  let s1 := growStore E maxInd (minValue compact)
    { s with nb := nb, size := s.size + 1, tmp := tmp, compact := compact, next := next
             ext := s.ext + ((nn : Int) + nbnd - 1 - 2 * r.2.1) }
  pure { s1 with feats := r.2.2, d := s1.d.erase next }

/-- the growth loop (include/CoMMA/Agglomerator.h:1334-1427) -/
def growLoopC (mx : Int) (E : IsoEnv W F) (maxInd : Nat) : Nat → GrowSt W F → M (GrowSt W F)
  | fuel, s =>
    if s.size < maxInd then
      match fuel with
      | 0 => .error .fuel
      | fuel + 1 => do
        let s ← growStepC mx E maxInd s
        growLoopC mx E maxInd fuel s
    else pure s

/-- initial state of the growth (include/CoMMA/Agglomerator.h:1284-1331) -/
def growInitC (mx : Int) (E : IsoEnv W F) (seed : Nat) (d : NMap Nat) : M (GrowSt W F) := do
  let nn ← E.g.nbNeighs seed
  let nbnd ← rd E.g.nBnd seed
  fits mx [(nn : Int), (nn : Int) + nbnd, (nn : Int) + nbnd - 1]
  growInit E seed d

/-- the last branch of `choose_optimal_cc_and_update_seeds_pool`
(include/CoMMA/Agglomerator.h:1278-1472), with the bounds of the loop at lines 1434-1441 -/
def growC (mx : Int) (E : IsoEnv W F) (agg : List Bool) (p : Pool) (seed : Nat) (d : NMap Nat) :
    M (NSet × Nat × Pool) := do
  fits mx [((d.size + 1 : Nat) : Int)]
  let maxInd := min E.maxCard (d.size + 1)
  let s0 ← growInitC mx E seed d
  let s ← growLoopC mx E maxInd maxInd s0
  let cc := ((s.dict.find? s.arg).getD (NSet.empty, NMap.empty)).1
  fits mx [(s.arg : Int) + 1, (maxInd : Int) + 1, cc.card]
  let d := putBack s.dict s.arg maxInd s.d
  let neighs ← E.g.neighbourhoodOf E.h cc agg
  let p ← pushNeighs E (groupByOrder d neighs) p
  assertM (decide (s.arg = cc.card))
  pure (cc, s.maxCompact, p)

/-- `choose_optimal_cc_and_update_seeds_pool` (include/CoMMA/Agglomerator.h:1224-1474) -/
def chooseOptimalC (mx : Int) (E : IsoEnv W F) (agg : List Bool) (p : Pool) (seed : Nat) : M (NSet × Nat × Pool) := do
  assertM (decide (1 < E.goalCard))
  let r ← neighbourhoodC mx E.g E.h (NSet.single seed) (maxOrder E) E.maxCard agg
  let d := r.2
  fits mx [((d.size + 1 : Nat) : Int)]
  if d.size = 0 then pure (NSet.single seed, 0, p)
  else if d.size + 1 < E.goalCard then do
    let cc := (NSet.single seed).insertMany d.keys
    let k ← minCompactnessC mx E.g cc
    pure (cc, k, p)
  else growC mx E agg p seed d

/-- one turn of the isotropic loop (include/CoMMA/Agglomerator.h:1104-1126), with the cardinality of the
coarse cell (include/CoMMA/Coarse_Cell.h:63, include/CoMMA/Coarse_Cell_Container.h:520-522) -/
def isoStepC (mx : Int) (E : IsoEnv W F) (c : Cont) (p : Pool) : M (Cont × Pool) := do
  let r ← p.choose E.pool c.agg
  assertM r.1.isSome
  let seed ← valueM r.1
  let o ← chooseOptimalC mx E c.agg r.2 seed
  fits mx [(o.1.card : Int)]
  let k ← c.create o.1 o.2.1 false false
  pure (k.2, o.2.2)

/-- the while loop (include/CoMMA/Agglomerator.h:1103-1127) -/
def isoLoopC (mx : Int) (E : IsoEnv W F) : Nat → Cont → Pool → M (Cont × Pool)
  | fuel, c, p =>
    if c.nbAgg < E.g.nbC then
      match fuel with
      | 0 => .error .fuel
      | fuel + 1 => do
        let r ← isoStepC mx E c p
        isoLoopC mx E fuel r.1 r.2
    else pure (c, p)

/-- `Agglomerator_Isotropic::agglomerate_one_level` without the correction
(include/CoMMA/Agglomerator.h:1099-1131) -/
def isoRunC (mx : Int) (E : IsoEnv W F) (c : Cont) (p : Pool) : M (Cont × Pool) := do
  let r ← isoLoopC mx E E.g.nbC c p
  let c ← r.1.createDelayed
  pure (c, r.2)

/-! ## Correction -/

/-- features of one neighbour (include/CoMMA/Coarse_Cell_Container.h:370-397, 461-471).  The
partial sums of `get_shared_faces` do not exceed their total. -/
def nbRecC (mx : Int) (g : Graph W) (fc id : Nat) (cc : CC) : M NbRec := do
  let sf ← sharedWith g fc cc.fcs
  fits mx [(sf : Int)]
  let k ← minCompactnessC mx g (cc.fcs.insert fc)
  pure ⟨id, cc.card, sf, k, decide (cc.compact < k)⟩

/-- the loop over the neighbours (include/CoMMA/Coarse_Cell_Container.h:361-400) -/
def isoRecsC (mx : Int) (g : Graph W) (ccs : NMap CC) (fc : Nat) (neighs : NSet) : M (List NbRec) :=
  neighs.elems.foldlM (fun l id => do
    let cc ← ccs.at! id
    if cc.iso then do
      let r ← nbRecC mx g fc id cc
      pure (l ++ [r])
    else pure l) []

/-- `select_best_cc_to_agglomerate` (include/CoMMA/Coarse_Cell_Container.h:339-453) -/
def selectCCC (mx : Int) (g : Graph W) (ccs : NMap CC) (fc : Nat) (neighs : NSet) : M (Option (Nat × Nat)) := do
  let _ ← isoRecsC mx g ccs fc neighs
  selectCC g ccs fc neighs

/-- the loop of `select_best_cc_to_agglomerate_whole`
(include/CoMMA/Coarse_Cell_Container.h:286-306) -/
def wholeRecsC (mx : Int) (g : Graph W) (ccs : NMap CC) (fcs neighs : NSet) : M (List (Nat × Nat × Nat)) :=
  neighs.elems.foldlM (fun l id => do
    let cc ← ccs.at! id
    if cc.iso then do
      let k ← minCompactnessC mx g (cc.fcs.insertMany fcs.elems)
      pure (if cc.compact < k then l ++ [(id, cc.card, k)] else l)
    else pure l) []

/-- `select_best_cc_to_agglomerate_whole`
(include/CoMMA/Coarse_Cell_Container.h:271-324) -/
def selectWholeC (mx : Int) (g : Graph W) (ccs : NMap CC) (fcs neighs : NSet) : M (Option (Nat × Nat)) := do
  let _ ← wholeRecsC mx g ccs fcs neighs
  selectWhole g ccs fcs neighs

/-- one fine cell given to another coarse cell, whose cardinality is incremented
(include/CoMMA/Coarse_Cell_Container.h:212-213, include/CoMMA/Coarse_Cell.h:105) -/
def moveCellC (mx : Int) (c : Cont) (i : Nat) (r : Nat × Nat) : M Cont := do
  let f ← wr c.fc2cc i (some r.1)
  let cc ← c.ccs.at! r.1
  fits mx [(cc.card : Int) + 1]
  pure { c with fc2cc := f, ccs := c.ccs.insert r.1 (cc.insertCell i r.2) }

/-- first try: the whole coarse cell (include/CoMMA/Coarse_Cell_Container.h:180-201), with the
cardinality of the receiver (include/CoMMA/Coarse_Cell.h:121) -/
def tryWholeC (mx : Int) (g : Graph W) (c : Cont) (cc : CC) (nb : List (Nat × NSet)) : M (Option Cont) :=
  if 1 < cc.card then do
    let glob := nb.foldl (fun (s : NSet) e => s.insertMany e.2.elems) NSet.empty
    if glob.card = 0 then pure none
    else do
      let o ← selectWholeC mx g c.ccs cc.fcs glob
      match o with
      | none => pure none
      | some r => do
        let f ← cc.fcs.elems.foldlM (fun f i => wr f i (some r.1)) c.fc2cc
        let cc' ← c.ccs.at! r.1
        fits mx [((cc'.card + cc.fcs.card : Nat) : Int)]
        pure (some { c with fc2cc := f, ccs := c.ccs.insert r.1 (cc'.insertCells cc.fcs r.2) })
  else pure none

/-- second try: fine cell by fine cell (include/CoMMA/Coarse_Cell_Container.h:202-221) -/
def tryCellsC (mx : Int) (g : Graph W) (c : Cont) (nb : List (Nat × NSet)) : M (Bool × Cont) :=
  nb.foldlM (fun (a : Bool × Cont) e =>
    if e.2.card = 0 then pure a
    else do
      let o ← selectCCC mx g a.2.ccs e.1 e.2
      match o with
      | none => pure a
      | some r => do
        let c ← moveCellC mx a.2 e.1 r
        pure (true, c)) (false, c)

/-- body of the loop over the singular cells
(include/CoMMA/Coarse_Cell_Container.h:167-228) -/
def correctStepC (mx : Int) (g : Graph W) (h : Hash) (a : Cont × NSet) (old : Nat) : M (Cont × NSet) := do
  let cc ← a.1.ccs.at! old
  if cc.card ≤ a.1.thresh then do
    let nb ← neighsByFc g h a.1 old cc.fcs
    let w ← tryWholeC mx g a.1 cc nb
    match w with
    | some c => pure (dropCC c a.2 old)
    | none => do
      let t ← tryCellsC mx g a.1 nb
      pure (if t.1 then dropCC t.2 a.2 old else (t.2, a.2))
  else pure a

/-- `correct` (include/CoMMA/Coarse_Cell_Container.h:164-255) -/
def correctC (mx : Int) (g : Graph W) (h : Hash) (c : Cont) : M Cont := do
  let r ← c.singular.foldlM (correctStepC mx g h) (c, NSet.empty)
  match r.2.elems with
  | [] => pure r.1
  | first :: _ => renumber r.1 first

/-! ## Tagging -/

/-- one compliant cell (include/CoMMA/Dual_Graph.h:755-866): `nb_neighbours` starts with the
number of neighbours and is decremented for every self reference; it is not used with a
negative threshold -/
def tagOneC (mx : Int) (g : Graph W) (prio : List W) (coupling : Coupling) (preserving : Nat) (thr : W) (s : TagSt W)
    (i : Nat) : M (TagSt W) :=
  if Num.lt thr (Num.ofNat 0) then tagAll g prio coupling s i
  else do
    let row ← g.neighs i
    fits mx ((List.range (row.count i + 1)).map (fun (k : Nat) => (row.length : Int) - k))
    tagByRatio g prio coupling preserving thr s i

/-- `tag_anisotropic_cells` (include/CoMMA/Dual_Graph.h:739-874) -/
def tagCellsC (mx : Int) (g : Graph W) (h : Hash) (prio : List W) (coupling : Coupling) (preserving : Nat) (thr : W)
    (maxW : List W) (isAniso : List Bool) : M (List W × List W × List Bool × List Nat) := do
  let s ← (h.ord 6 g.compliant.elems).foldlM (tagOneC mx g prio coupling preserving thr) ⟨altInit g coupling, maxW, []⟩
  let b ← (firsts s.tagged).foldlM (fun v i => wr v i true) isAniso
  pure (s.alt, s.maxW, b, firsts s.tagged)

/-- `build_anisotropic_lines` (include/CoMMA/Agglomerator.h:537-739) -/
def buildLinesC (mx : Int) (g : Graph W) (h : Hash) (prio : List W) (coupling : Coupling) (force : Bool) (thr : W) :
    M (List (List Nat)) := do
  let _ ← tagCellsC mx g h prio coupling 0 thr (List.replicate g.nbC (Num.ofNat 0)) (List.replicate g.nbC false)
  buildLines g h prio coupling force thr

/-! ## The whole call -/

/-- the lines of the anisotropic agglomerator (include/CoMMA/Agglomerator.h:245-284) -/
def fineLinesC (P : Platform) (a : Args W) (o : Outs) : M (List (List Nat)) :=
  if a.buildLines then
    buildLinesC P.intMax (graphOf a) P.hash a.prio (effCoupling a) a.forceDir (effThreshold a.thr)
  else givenLines o.linesIdx o.lines

/-- anisotropic phase (include/CoMMA/CoMMA.h:351-400).  The cardinalities of anisotropic coarse cells are 2
and 3. -/
def anisoPhaseC (P : Platform) (a : Args W) (o : Outs) (c : PoolCfg W) : M (Cont × Pool × List Nat × List Nat) :=
  if anisoOn a o then do
    let l ← fineLinesC P a o
    let r ← agglomLines (graphOf a) c ⟨a.oddLine, effMaxCells a⟩ l
      (Cont.new (graphOf a).nbC (effThresh a).toNat) Pool.new
    pure (r.1, r.2.1, exportLines r.2.2)
  else do
    let p ← Pool.new.initialize c
    pure (Cont.new (graphOf a).nbC (effThresh a).toNat, p, o.linesIdx, o.lines)

/-- the isotropic agglomerator (include/CoMMA/CoMMA.h:402-429) -/
def isoEnvOfC (P : Platform) (a : Args W) (c : PoolCfg W) : IsoEnv W (Feats W) :=
  { isoEnvOf P a c with
    ar := arOfC P.intMax (graphOf a) P.hash a.aspect }

/-- optional correction (include/CoMMA/Agglomerator.h:1132-1135) -/
def correctIfC (P : Platform) (a : Args W) (c : Cont) : M Cont :=
  if a.correction then correctC P.intMax (graphOf a) P.hash c else pure c

/-- isotropic phase (include/CoMMA/CoMMA.h:402-433) -/
def isoPhaseC (P : Platform) (a : Args W) (c : PoolCfg W) (k : Cont) (p : Pool) : M Cont := do
  checkArg (decide (a.aspect ≠ .unknown))
  let r ← isoRunC P.intMax (isoEnvOfC P a c) k p
  correctIfC P a r.1

/-- the two phases and the final copy (include/CoMMA/CoMMA.h:351-443) -/
def runPhasesC (P : Platform) (a : Args W) (o : Outs) (c : PoolCfg W) : Outs × M Unit :=
  match anisoPhaseC P a o c with
  | .error e => (o, .error e)
  | .ok (k, p, idx, lines) =>
    match isoPhaseC P a c k p with
    | .error e => (⟨o.fcToCc, idx, lines⟩, .error e)
    | .ok k' =>
      match fillFcToCc k' with
      | .error e => (⟨filledBefore k', idx, lines⟩, .error e)
      | .ok f => (⟨f, idx, lines⟩, .ok ())

/-- the integer arguments fit in their type, and so does `min_card - 1`
(include/CoMMA/CoMMA.h:148, 166-175, 281) -/
def argInts (a : Args W) : List Int :=
  [a.dim, a.goalCard, a.minCard, a.maxCard, a.singThresh, a.fcIter, a.minCard - 1] ++ a.nBnd.map (fun (n : Nat) => (n : Int))

/-- `agglomerate_one_level` (include/CoMMA/CoMMA.h:137-444) computing with a bounded integer type -/
def agglomerateBounded (P : Platform) (a : Args W) (o : Outs) : Outs × M Unit :=
  match checkAll P a o with
  | .error e => (o, .error e)
  | .ok c =>
    match fits P.intMax (argInts a) with
    | .error e => (o, .error e)
    | .ok _ => runPhasesC P a o c

end CoMMA
