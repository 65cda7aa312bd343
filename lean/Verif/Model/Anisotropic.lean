import Verif.Model.AspectRatio
import Verif.Model.Container
/-! # Anisotropic agglomeration
(include/CoMMA/Dual_Graph.h, `tag_anisotropic_cells`; include/CoMMA/Agglomerator.h,
`Agglomerator_Anisotropic`; include/CoMMA/Util.h) -/

namespace CoMMA

/-- `CoMMACellCouplingT` (include/CoMMA/CoMMADefs.h:103-108) -/
inductive Coupling where
  | maxWeight
  | minDistance
  | unknown
  deriving DecidableEq, Repr

variable {W : Type} [Num W]

/-- `get_direction` (include/CoMMA/Util.h:128-142): new contents of `dir` -/
def getDirection (a b dir : List W) : M (List W) := do
  let r ← (List.range a.length).foldlM (fun (s : List W × W) i => do
    let x ← rd a i
    let y ← rd b i
    let d ← wr s.1 i (Num.sub y x)
    pure (d, Num.add s.2 (Num.mul (Num.sub y x) (Num.sub y x)))) (dir, Num.ofNat 0)
  pure (r.1.map (fun x => Num.mul x (Num.div (Num.ofNat 1) (Num.sqrt r.2))))

/-- `get_center_direction` (include/CoMMA/Dual_Graph.h:708-716) -/
def Graph.centerDirection (g : Graph W) (a b : Nat) (dir : List W) : M (List W) := do
  let x ← rd g.centers a
  let y ← rd g.centers b
  getDirection x y dir

/-- `dot_product` (include/CoMMA/Util.h:106-116) -/
def dotProduct (a b : List W) : M W :=
  (List.range a.length).foldlM (fun s i => do
    let x ← rd a i
    let y ← rd b i
    pure (Num.add s (Num.mul x y))) (Num.ofNat 0)

/-- `dot_deviate` (include/CoMMA/Util.h:93-96) -/
def dotDeviate (d : W) : Bool := Num.lt (Num.abs d) Num.cdev

/-! ## Tagging -/

/-- output arguments of `tag_anisotropic_cells`: `alt_weights`, `max_weights` and the
ordered set `aniso_w_weights` (include/CoMMA/Dual_Graph.h:740-754) -/
structure TagSt (W : Type) where
  alt : List W
  maxW : List W
  tagged : List (Nat × W)

/-- `*max_element(first, last)` (include/CoMMA/Dual_Graph.h:760-762) -/
def maxWeightM (l : List W) : M W :=
  match l with
  | [] => .error .ub
  | x :: xs => .ok (xs.foldl (fun m y => if Num.lt m y then y else m) x)

/-- inverse squared distances to the neighbours, written in `alt_weights`, and their maximum
(include/CoMMA/Dual_Graph.h:769-781, 847-859) -/
def distWeights (g : Graph W) (i : Nat) (alt : List W) : M (List W × W) := do
  let off ← rd g.rowPtr i
  let row ← g.neighs i
  let ci ← rd g.centers i
  let r ← row.foldlM (fun (s : Nat × List W × W) n => do
    let cn ← rd g.centers n
    let d ← sqDist ci cn
    let dist := Num.div (Num.ofNat 1) d
    let alt ← wr s.2.1 s.1 dist
    pure (s.1 + 1, alt, if Num.lt s.2.2 dist then dist else s.2.2)) (off, alt, Num.ofNat 0)
  pure r.2

/-- update of the weights according to the coupling (include/CoMMA/Dual_Graph.h:840-864) -/
def tagWeights (g : Graph W) (coupling : Coupling) (i : Nat) (mx : W) (s : TagSt W) : M (TagSt W) :=
  match coupling with
  | .maxWeight => do
    let m ← wr s.maxW i mx
    pure { s with maxW := m }
  | .minDistance => do
    let r ← distWeights g i s.alt
    let m ← wr s.maxW i r.2
    pure { s with alt := r.1, maxW := m }
  | .unknown => pure s

/-- one compliant cell when the threshold is negative (include/CoMMA/Dual_Graph.h:755-787);
with an unknown coupling nothing is tagged -/
def tagAll (g : Graph W) (prio : List W) (coupling : Coupling) (s : TagSt W) (i : Nat) : M (TagSt W) :=
  match coupling with
  | .maxWeight => do
    let w ← rd prio i
    let ws ← g.weights i
    let mx ← maxWeightM ws
    let m ← wr s.maxW i mx
    pure { s with maxW := m, tagged := pinsert (i, w) s.tagged }
  | .minDistance => do
    let w ← rd prio i
    let r ← distWeights g i s.alt
    let m ← wr s.maxW i r.2
    pure { alt := r.1, maxW := m, tagged := pinsert (i, w) s.tagged }
  | .unknown => pure s

/-- smallest and largest weights of a cell and number of its neighbours, self references
excluded (include/CoMMA/Dual_Graph.h:791-816) -/
def minMaxWeights (i : Nat) (l : List (Nat × W)) : W × W × Int :=
  l.foldl (fun (s : W × W × Int) e =>
    if e.1 ≠ i then (if Num.lt e.2 s.1 then e.2 else s.1, if Num.lt s.2.1 e.2 then e.2 else s.2.1, s.2.2)
    else (s.1, s.2.1, s.2.2 - 1)) (Num.lmax, Num.ofNat 0, (l.length : Int))

/-- `_compute_AR` (include/CoMMA/Dual_Graph.h:596-603) -/
def Graph.weightsRatio (g : Graph W) (mn mx : W) : W :=
  if g.dim = 2 then Num.div mx mn else Num.sqrt (Num.div mx mn)

/-- the switch on `preserving` (include/CoMMA/Dual_Graph.h:821-837); case 3 falls through to
the default, and the number of boundary faces it reads before, without effect, is left out -/
def keepsLayer (g : Graph W) (preserving i : Nat) (nb : Int) : M Bool :=
  if preserving = 2 then do
    let b ← rd g.nBnd i
    pure ((decide (0 < b) && decide (nb = 3)) || decide (nb = 4))
  else pure true

/-- insertion of a cell whose ratio reaches the threshold
(include/CoMMA/Dual_Graph.h:820-838) -/
def tagIf (g : Graph W) (prio : List W) (preserving : Nat) (thr : W) (i : Nat) (mm : W × W × Int)
    (s : List (Nat × W)) : M (List (Nat × W)) :=
  if Num.le thr (g.weightsRatio mm.1 mm.2.1) then do
    let k ← keepsLayer g preserving i mm.2.2
    if k then do
      let w ← rd prio i
      pure (pinsert (i, w) s)
    else pure s
  else pure s

/-- one compliant cell when the threshold is not negative
(include/CoMMA/Dual_Graph.h:789-866) -/
def tagByRatio (g : Graph W) (prio : List W) (coupling : Coupling) (preserving : Nat) (thr : W) (s : TagSt W)
    (i : Nat) : M (TagSt W) := do
  let row ← g.neighs i
  let ws ← g.weights i
  let t ← tagIf g prio preserving thr i (minMaxWeights i (row.zip ws)) s.tagged
  tagWeights g coupling i (minMaxWeights i (row.zip ws)).2.1 { s with tagged := t }

/-- initial `alt_weights` (include/CoMMA/Dual_Graph.h:749-753) -/
def altInit (g : Graph W) (coupling : Coupling) : List W :=
  match coupling with
  | .minDistance => List.replicate g.values.length (Num.ofNat 0)
  | _ => []

/-- the body of `tag_anisotropic_cells` for one cell (include/CoMMA/Dual_Graph.h:755-866) -/
def tagOne (g : Graph W) (prio : List W) (coupling : Coupling) (preserving : Nat) (thr : W) (s : TagSt W) (i : Nat) :
    M (TagSt W) :=
  if Num.lt thr (Num.ofNat 0) then tagAll g prio coupling s i
  else tagByRatio g prio coupling preserving thr s i

/-- `tag_anisotropic_cells` (include/CoMMA/Dual_Graph.h:739-874): reference weights
(`alt_weights`), `max_weights`, `is_anisotropic` and the ordered tagged cells.  `h` gives the
iteration order over the unordered set of compliant cells. -/
def Graph.tagCells (g : Graph W) (h : Hash) (prio : List W) (coupling : Coupling) (preserving : Nat) (thr : W)
    (maxW : List W) (isAniso : List Bool) : M (List W × List W × List Bool × List Nat) := do
  let s ← (h.ord 6 g.compliant.elems).foldlM (tagOne g prio coupling preserving thr) ⟨altInit g coupling, maxW, []⟩
  let b ← (firsts s.tagged).foldlM (fun v i => wr v i true) isAniso
  pure (s.alt, s.maxW, b, firsts s.tagged)

/-! ## Lines -/

/-- `is_high_coupling` (include/CoMMA/Agglomerator.h:741-745) -/
def highCoupling (w ref : W) : Bool := Num.lt (Num.mul Num.c090 ref) w

/-- what the construction of the lines reads and never changes (include/CoMMA/Agglomerator.h:537-566) -/
structure LineEnv (W : Type) where
  g : Graph W
  ref : List W
  maxW : List W
  force : Bool
  ptsDim : Nat

/-- `find_cell_candidates_for_line_max_weight` (include/CoMMA/Agglomerator.h:758-773) -/
def candWeight (L : LineEnv W) (toTreat : List Bool) (seed : Nat) : M (List (Nat × W)) := do
  let off ← rd L.g.rowPtr seed
  let row ← L.g.neighs seed
  let mx ← rd L.maxW seed
  let r ← row.foldlM (fun (s : Nat × List (Nat × W)) n => do
    let t ← rd toTreat n
    let w ← rd L.ref s.1
    pure (s.1 + 1, if t && highCoupling w mx then pinsert (n, w) s.2 else s.2)) (off, [])
  pure r.2

/-- direction test of a candidate (include/CoMMA/Agglomerator.h:806-813) -/
def candDot (L : LineEnv W) (prev : List W) (seed n : Nat) (s : List (Nat × W)) : M (List (Nat × W)) := do
  let dir ← L.g.centerDirection n seed (List.replicate L.ptsDim (Num.ofNat 0))
  let dot ← dotProduct prev dir
  pure (if Num.lt (Num.ofNat 0) dot && !dotDeviate dot then pinsert (n, dot) s else s)

/-- `find_cell_candidates_for_line_direction` (include/CoMMA/Agglomerator.h:790-816) -/
def candDir (L : LineEnv W) (toTreat : List Bool) (prev : List W) (checkWeight : Bool) (seed : Nat) :
    M (List (Nat × W)) := do
  let off ← rd L.g.rowPtr seed
  let row ← L.g.neighs seed
  let mx ← rd L.maxW seed
  let r ← row.foldlM (fun (s : Nat × List (Nat × W)) n => do
    let t ← rd toTreat n
    let w ← rd L.ref s.1
    if t && (!checkWeight || highCoupling w mx) then do
      let c ← candDot L prev seed n s.2
      pure (s.1 + 1, c)
    else pure (s.1 + 1, s.2)) (off, [])
  pure r.2

/-- local variables of the loop building a line (include/CoMMA/Agglomerator.h:583-606) -/
structure LineSt (W : Type) where
  line : List Nat
  seed : Nat
  toTreat : List Bool
  opposite : Bool
  prevDir : List W
  primalDir : Option (List W)
  empty : Bool
  fin : Bool

/-- a candidate is added to the line (include/CoMMA/Agglomerator.h:637-650, 669-682) -/
def LineSt.extend (L : LineEnv W) (s : LineSt W) (x : Nat) : M (LineSt W) := do
  let t ← wr s.toTreat x false
  let dir ← L.g.centerDirection x s.seed s.prevDir
  pure { s with
    line := if s.opposite then x :: s.line else s.line ++ [x]
    seed := x
    toTreat := t
    prevDir := dir
    primalDir := if s.primalDir.isSome then s.primalDir else some dir
    empty := false }

/-- no candidate: go back to the first cell or stop
(include/CoMMA/Agglomerator.h:684-701, 704-722) -/
def LineSt.turn (s : LineSt W) (primal : Nat) : M (LineSt W) :=
  if !s.opposite && decide (s.seed ≠ primal) then do
    let pd ← valueM s.primalDir
    let d ← (List.range s.prevDir.length).mapM (fun i => do
      let x ← rd pd i
      pure (Num.neg x))
    pure { s with seed := primal, prevDir := d, opposite := true }
  else pure { s with fin := true }

/-- first candidates (include/CoMMA/Agglomerator.h:615-628) -/
def firstCands (L : LineEnv W) (s : LineSt W) : M (List (Nat × W)) :=
  if !L.force || s.empty then candWeight L s.toTreat s.seed
  else candDir L s.toTreat s.prevDir true s.seed

/-- candidates through any face (include/CoMMA/Agglomerator.h:655-667) -/
def moreCands (L : LineEnv W) (s : LineSt W) : M (List (Nat × W)) :=
  if L.force && !s.empty then candDir L s.toTreat s.prevDir false s.seed
  else pure []

/-- one turn of the loop (include/CoMMA/Agglomerator.h:609-725) -/
def lineStep (L : LineEnv W) (primal : Nat) (s : LineSt W) : M (LineSt W) := do
  let c ← firstCands L s
  match c with
  | e :: _ => s.extend L e.1
  | [] => do
    let c ← moreCands L s
    match c with
    | e :: _ => s.extend L e.1
    | [] => s.turn primal

/-- `while (!end)` (include/CoMMA/Agglomerator.h:609) -/
def lineLoop (L : LineEnv W) (primal : Nat) : Nat → LineSt W → M (LineSt W)
  | fuel, s =>
    if s.fin then pure s
    else match fuel with
      | 0 => .error .fuel
      | fuel + 1 => do
        let s ← lineStep L primal s
        lineLoop L primal fuel s

/-- the line starting from a tagged cell (include/CoMMA/Agglomerator.h:586-726); each turn
treats a cell, turns round or stops, hence the fuel -/
def buildLine (L : LineEnv W) (toTreat : List Bool) (primal : Nat) : M (List Nat × List Bool) := do
  let t ← wr toTreat primal false
  let s ← lineLoop L primal (L.g.nbC + 2)
    ⟨[primal], primal, t, false, List.replicate L.ptsDim (Num.ofNat 0), none, true, false⟩
  pure (s.line, s.toTreat)

/-- loop over the tagged cells (include/CoMMA/Agglomerator.h:578-732): lines with at least
two cells -/
def buildFrom (L : LineEnv W) (seeds : List Nat) (toTreat : List Bool) : M (List (List Nat) × List Bool) :=
  seeds.foldlM (fun (s : List (List Nat) × List Bool) i => do
    let t ← rd s.2 i
    if t then do
      let r ← buildLine L s.2 i
      pure (if 1 < r.1.length then s.1 ++ [r.1] else s.1, r.2)
    else pure s) ([], toTreat)

/-- reference weights (include/CoMMA/Agglomerator.h:563-566) -/
def refWeights (g : Graph W) (coupling : Coupling) (alt : List W) : List W :=
  match coupling with
  | .maxWeight => g.values
  | _ => alt

/-- `build_anisotropic_lines` (include/CoMMA/Agglomerator.h:537-739): the lines (none if no
cell is tagged) -/
def buildLines (g : Graph W) (h : Hash) (prio : List W) (coupling : Coupling) (force : Bool) (thr : W) :
    M (List (List Nat)) := do
  let t ← g.tagCells h prio coupling 0 thr (List.replicate g.nbC (Num.ofNat 0)) (List.replicate g.nbC false)
  match t.2.2.2 with
  | [] => pure []
  | seeds => do
    let c0 ← rd g.centers 0
    let r ← buildFrom ⟨g, refWeights g coupling t.1, t.2.1, force, c0.length⟩ seeds t.2.2.1
    pure r.1

/-- threshold given to `build_anisotropic_lines` (include/CoMMA/Agglomerator.h:246-249) -/
def effThreshold (t : W) : W :=
  if Num.lt (Num.ofNat 1) t || Num.lt t (Num.ofNat 0) then t else Num.div (Num.ofNat 1) t

/-- lines given by the user: those with at least two cells
(include/CoMMA/Agglomerator.h:259-273).  The size of a line is a difference of unsigned
indices: with decreasing offsets it wraps round and the line is read backwards past its
end, which is undefined behaviour. -/
def readLines (lines : List Nat) : List Nat → M (List (List Nat))
  | b :: e :: r => do
    let rest ← readLines lines (e :: r)
    if e < b then .error .ub
    else if b + 1 < e then do
      let l ← slice lines b e
      pure (l :: rest)
    else pure rest
  | _ => pure []

/-- the same, in the constructor: the offsets must not be empty
(include/CoMMA/Agglomerator.h:259-262) -/
def givenLines (idx lines : List Nat) : M (List (List Nat)) :=
  match idx with
  | [] => .error .ub
  | _ => readLines lines idx

/-! ## Agglomeration of the lines -/

/-- settings of the loop over a line (include/CoMMA/Agglomerator.h:823-829) -/
structure LineCfg where
  odd : Bool
  maxCells : Option Int

/-- state of the loop (include/CoMMA/Agglomerator.h:328-383): container, neighbours met, cells of the coarse line, `n_cells` -/
structure PairSt where
  cont : Cont
  neighs : List Nat
  coarse : List Nat
  nCells : Nat

/-- limit test (include/CoMMA/Agglomerator.h:332-336) -/
def LineCfg.full (L : LineCfg) (n : Nat) : Bool :=
  match L.maxCells with
  | none => false
  | some m => decide (m < (n : Int) + 2)

/-- test for a third cell (include/CoMMA/Agglomerator.h:361-365) -/
def LineCfg.third (L : LineCfg) (left n : Nat) : Bool :=
  decide (left = 3) || (match L.maxCells with
    | none => false
    | some m => decide ((n : Int) + 1 = m))

/-- the cells of a group: two, or three (include/CoMMA/Agglomerator.h:342-344, 361-367) -/
def groupOf (L : LineCfg) (line : List Nat) (p : Nat) (third : Bool) : M (List Nat) := do
  let a ← rd line p
  let b ← rd line (p + 1)
  if third && L.odd then do
    let c ← rd line (p + 2)
    pure [a, b, c]
  else pure [a, b]

/-- one turn of `loop_line` (include/CoMMA/Agglomerator.h:337-379) -/
def pairStep (g : Graph W) (group : List Nat) (s : PairSt) : M PairSt := do
  let rows ← group.mapM g.neighs
  let r ← s.cont.create (NSet.ofList group) 1 true false
  pure ⟨r.2, s.neighs ++ rows.flatten, s.coarse ++ [r.1], s.nCells + group.length⟩

/-- `loop_line` on the cells of the line in the chosen direction
(include/CoMMA/Agglomerator.h:328-383); `p` is the position of the iterator.  Moving the
iterator past the end is undefined behaviour. -/
def pairLoop (g : Graph W) (L : LineCfg) (line : List Nat) : Nat → Nat → PairSt → M PairSt
  | fuel, p, s =>
    if p = line.length then pure s
    else if L.full s.nCells then pure s
    else match fuel with
      | 0 => .error .fuel
      | fuel + 1 => do
        let t := L.third (line.length - p) (s.nCells + 2)
        let grp ← groupOf L line p t
        let s ← pairStep g grp s
        let p' := if t then p + 3 else p + 2
        if p' ≤ line.length then pairLoop g L line fuel p' s else .error .ub

/-- from which end a line is agglomerated (include/CoMMA/Agglomerator.h:404-418) -/
def isForward (g : Graph W) (prio : List W) (line : List Nat) : M Bool := do
  let fr ← rd line 0
  let bk ← rd line (line.length - 1)
  let bf ← rd g.nBnd fr
  let bb ← rd g.nBnd bk
  let wf ← rd prio fr
  let wb ← rd prio bk
  pure (decide (bb < bf) || (decide (bf = bb) && (Num.lt wb wf || (Num.eq wf wb && decide (fr < bk)))))

/-- one line (include/CoMMA/Agglomerator.h:386-424): container, neighbours, coarse lines -/
def agglomLine (g : Graph W) (prio : List W) (L : LineCfg) (s : Cont × List Nat × List (List Nat)) (line : List Nat) :
    M (Cont × List Nat × List (List Nat)) :=
  if line.length ≤ 1 then pure s
  else do
    let fwd ← isForward g prio line
    let r ← pairLoop g L (if fwd then line else line.reverse) (line.length + 1) 0 ⟨s.1, s.2.1, [], 0⟩
    pure (r.cont, r.neighs, s.2.2 ++ [r.coarse])

/-- cells not agglomerated yet (include/CoMMA/Agglomerator.h:437-443) -/
def dropAgg (agg : List Bool) : List Nat → M (List Nat)
  | [] => pure []
  | x :: r => do
    let a ← rd agg x
    let r ← dropAgg agg r
    pure (if a then r else x :: r)

/-- first part of `update_seeds_pool` (include/CoMMA/Agglomerator.h:434-452) -/
def pushAniso (g : Graph W) (c : PoolCfg W) (agg : List Bool) (neighs : List Nat) (p : Pool) : M Pool := do
  let l ← dropAgg agg neighs
  match l with
  | [] => pure p
  | x :: _ => do
    let b ← rd g.nBnd x
    (p.setTop b).update c l

/-- `update_seeds_pool` (include/CoMMA/Agglomerator.h:433-460) -/
def updateAnisoPool (g : Graph W) (c : PoolCfg W) (agg : List Bool) (neighs : List Nat) (p : Pool) : M Pool := do
  let p ← pushAniso g c agg neighs p
  let r ← p.needInit c agg
  if r.1 then r.2.initialize c else pure r.2

/-- `Agglomerator_Anisotropic::agglomerate_one_level`
(include/CoMMA/Agglomerator.h:306-428) on the lines of level 0: container, pool and coarse
lines -/
def agglomLines (g : Graph W) (c : PoolCfg W) (L : LineCfg) (lines : List (List Nat)) (cont : Cont) (p : Pool) :
    M (Cont × Pool × List (List Nat)) :=
  if lines = [] then do
    let p ← p.initialize c
    pure (cont, p, [])
  else do
    let r ← lines.foldlM (agglomLine g c.prio L) (cont, [], [])
    let p ← updateAnisoPool g c r.1.agg r.2.1 p
    pure (r.1, p, r.2.2)

/-- `export_anisotropic_lines` (include/CoMMA/Agglomerator.h:469-507): offsets and cells -/
def exportLines (lines : List (List Nat)) : List Nat × List Nat :=
  if lines = [] then ([], [])
  else
    let r := lines.foldl (fun (s : List Nat × List Nat × Nat) l =>
      (s.1 ++ [l.length + s.2.2], s.2.1 ++ l, s.2.2 + l.length)) ([0], [], 0)
    (r.1, r.2.1)

end CoMMA
