import Verif.Spec.Agglomeration
import Verif.Spec.Neighbourhood
import Verif.Spec.TopLevel
import Verif.Spec.PoolSteps
/-! # Vocabulary for the growth of a coarse cell -/

namespace CoMMA

variable {W F : Type} [Num W]

/-- what candidates are compared by: faces in common with the coarse cell, distance from
the seed, aspect ratio of the coarse cell with the candidate -/
structure Merit (W : Type) where
  faces : Nat
  order : Nat
  ar : W

/-- `a` is at least as good as `b`: more faces; or as many and closer to the seed; or the
same and the aspect ratio is not larger -/
def Merit.AsGood (a b : Merit W) : Prop :=
  b.faces < a.faces ∨ (a.faces = b.faces ∧ (a.order < b.order ∨ (a.order = b.order ∧ Num.lt b.ar a.ar = false)))

/-- The first best of a list of candidates, `R x m f` saying that `x` has merit `m` and leads
to features `f`: at least as good as all, strictly better than those before. -/
def FirstBest (R : Nat → Merit W → F → Prop) (cands : List Nat) (c : Nat) (m : Merit W) (f : F) : Prop :=
  ∃ μ : Nat → Merit W × F, (∀ x ∈ cands, R x (μ x).1 (μ x).2) ∧ μ c = (m, f) ∧
    (∀ x ∈ cands, m.AsGood (μ x).1) ∧
    ∃ pre post, cands = pre ++ c :: post ∧ ∀ x ∈ pre, ¬ (μ x).1.AsGood m

/-- Merit `m` of cell `c` for a coarse cell `cc` with features `f`, and features `f'` of the
coarse cell with `c`: number of neighbours of `c` in `cc`, distance of `c` from the seed (in
`d`), aspect ratio from the computer. -/
structure HasMerit (E : IsoEnv W F) (d : NMap Nat) (f : F) (cc : NSet) (c : Nat) (m : Merit W) (f' : F) : Prop where
  faces : m.faces = nbShared (rowOf E.g.rowPtr E.g.colInd c) cc
  order : d.find? c = some m.order
  ar : ∃ n, E.ar.compute c f cc = .ok (n, m.ar, f')

/-- merit of a candidate when the best cell to be added after it has `q` faces in common: as
many faces if that is more; if it is the same, the best possible aspect ratio -/
def Merit.ahead (m : Merit W) (q : Nat) : Merit W :=
  if m.faces < q then { m with faces := q }
  else if q = m.faces && Num.lt (Num.ofNat 0) m.ar then { m with ar := Num.ofNat 0 } else m

/-- Merit of cell `c` for the coarse cell made of the cells `xs`, added in this order, when `k`
further cells are looked at: that of `c`, improved by the best cell to be added after it.  `al`
holds the cells that may be taken, `d` their distances from the seed. -/
def LookAhead (E : IsoEnv W F) (al : NSet) (d : NMap Nat) : Nat → List Nat → F → Nat → Merit W → F → Prop
  | 0, xs, f, c, m, f' => HasMerit E d f (NSet.ofList xs) c m f'
  | k + 1, xs, f, c, m, f' => ∃ m0 l, HasMerit E d f (NSet.ofList xs) c m0 f' ∧
      Candidates E.g E.nbh E.pool.prio al (xs ++ [c]) l ∧
      ((l = [] ∧ m = m0) ∨
        ∃ c2 m2 f2, FirstBest (LookAhead E al d k (xs ++ [c]) f') l c2 m2 f2 ∧
          m = m0.ahead (nbShared (rowOf E.g.rowPtr E.g.colInd c2) (NSet.ofList (xs ++ [c]))))

/-- A coarse cell grown one cell after the other, with its features: from the seed, always
adding the first best candidate.  `d` holds the cells that may be taken
with their distances from the seed, `hi` is the final size.  Up to `fc_choice_iter` cells are
looked ahead, not beyond the final size. -/
inductive GreedySeq (E : IsoEnv W F) (d : NMap Nat) (hi : Nat) : List Nat → F → Prop where
  | seed {s : Nat} {f : F} : E.ar.init s = .ok f → GreedySeq E d hi [s] f
  | next {xs l : List Nat} {f f' : F} {c : Nat} {m : Merit W} : GreedySeq E d hi xs f →
      Candidates E.g E.nbh E.pool.prio d.keySet xs l →
      FirstBest (LookAhead E d.keySet d (min (hi - xs.length) E.fcIter - 1) xs f) l c m f' →
      GreedySeq E d hi (xs ++ [c]) f'

/-- number of faces of the cells of `s` that lie on the boundary of the mesh or lead out of
`s` -/
def externalFaces (g : Graph W) (s : NSet) : Nat :=
  (s.elems.map (fun x => (rowOf g.rowPtr g.colInd x).countP (fun y => !s.has y) + (g.nBnd[x]?).getD 0)).sum

/-- The size `m` chosen between `lo` and `hi`, for compactness `κ` and cost `e` of each size:
largest compactness; then smallest cost; then `goal`; then the largest. -/
def BestSize (lo hi goal : Nat) (κ : Nat → Nat) (e : Nat → Int) (m : Nat) : Prop :=
  lo ≤ m ∧ m ≤ hi ∧ ∀ j, lo ≤ j → j ≤ hi →
    κ j < κ m ∨ (κ j = κ m ∧ (e m < e j ∨ (e m = e j ∧ (m = goal ∨ (j ≠ goal ∧ j ≤ m)))))

/-- The coarse cell `s` made from `seed` when the cells `agg` are already taken.  Cells
around the seed are searched by distance, through free cells, up to distance 2 in 2D, 3 in
3D, or `max_card / dimension` if larger; and further as long as fewer than `max_card` cells
are found; `order` is the first distance not searched.  If there are fewer than `goal_card`, all
are taken.  Else the cell is grown up to `max_card` (or all cells) as described by `Grown`,
and cut at the best size; the cost of a size is the number of external faces minus the
number of cells. -/
def GrownCell (E : IsoEnv W F) (Grown : NMap Nat → Nat → List Nat → Prop) (agg : List Bool) (seed order : Nat)
    (s : NSet) : Prop :=
  ∃ d : NMap Nat, (∀ x k, d.find? x = some k ↔
      IsDistance (FreeAdj E.g.rowPtr E.g.colInd agg) (· = seed) x k ∧ 0 < k ∧ k < order) ∧
    ((∀ x, ReachableFrom (FreeAdj E.g.rowPtr E.g.colInd agg) (· = seed) x → x = seed ∨ x ∈ d.keySet) ∨
      (max (if E.g.dim = 2 then 2 else 3) (E.maxCard / E.g.dim) < order ∧ E.maxCard ≤ d.size + 1)) ∧
    (order ≤ max (if E.g.dim = 2 then 2 else 3) (E.maxCard / E.g.dim) + 1 ∨
      FewBefore (FreeAdj E.g.rowPtr E.g.colInd agg) (· = seed) order E.maxCard) ∧
    (d.size + 1 < E.goalCard → ∀ x, x ∈ s ↔ x = seed ∨ x ∈ d.keySet) ∧
    (E.goalCard ≤ d.size + 1 → ∃ xs κ m, Grown d (min E.maxCard (d.size + 1)) xs ∧ xs.head? = some seed ∧
      xs.length = min E.maxCard (d.size + 1) ∧ xs.Nodup ∧
      (∀ j, E.minCard ≤ j → j ≤ xs.length → IsCompactness E.g.rowPtr E.g.colInd (NSet.ofList (xs.take j)) (κ j)) ∧
      BestSize E.minCard xs.length E.goalCard κ
        (fun j => (externalFaces E.g (NSet.ofList (xs.take j)) : Int) - j) m ∧
      s = NSet.ofList (xs.take m))

/-- grown greedily -/
def GrownGreedily (E : IsoEnv W F) (d : NMap Nat) (hi : Nat) (xs : List Nat) : Prop := ∃ f, GreedySeq E d hi xs f

/-- the coarse cell made from `seed` when it is grown greedily -/
def GreedyCell (E : IsoEnv W F) (agg : List Bool) (seed order : Nat) (s : NSet) : Prop :=
  GrownCell E (GrownGreedily E) agg seed order s

/-- groups of new seeds join the queues one after the other -/
inductive JoinedInTurn (c : PoolCfg W) : List NSet → Pool → Pool → Prop where
  | none {p : Pool} : JoinedInTurn c [] p p
  | next {t : NSet} {gs : List NSet} {p p1 p2 : Pool} : SeedsJoined c t p p1 → JoinedInTurn c gs p1 p2 →
      JoinedInTurn c (t :: gs) p p2

/-- The seeds pool when the coarse cell `s` has been made from `seed`: its free neighbours
are queued in groups, by increasing distance from the seed; those at distance `order` or
more form one last group. -/
def SeedsQueued (E : IsoEnv W F) (agg : List Bool) (seed order : Nat) (s : NSet) (p p' : Pool) : Prop :=
  ∃ gs : List NSet, (∀ t ∈ gs, 0 < t.card) ∧
    (∀ x, (∃ t ∈ gs, x ∈ t) ↔ x ∉ s ∧ agg[x]? = some false ∧ ∃ y ∈ s, Adj E.g.rowPtr E.g.colInd y x) ∧
    (∀ t ∈ gs, ∀ x ∈ t, ∀ y ∈ t, ∀ k l, IsDistance (FreeAdj E.g.rowPtr E.g.colInd agg) (· = seed) x k →
      IsDistance (FreeAdj E.g.rowPtr E.g.colInd agg) (· = seed) y l → k = l ∨ (order ≤ k ∧ order ≤ l)) ∧
    gs.Pairwise (fun t u => ∀ x ∈ t, ∀ y ∈ u, ∀ k l, IsDistance (FreeAdj E.g.rowPtr E.g.colInd agg) (· = seed) x k →
      IsDistance (FreeAdj E.g.rowPtr E.g.colInd agg) (· = seed) y l → k < l ∧ k < order) ∧
    JoinedInTurn E.pool gs p p'

/-- A run of the isotropic agglomeration from cells `agg0` already taken and the pool `p0`:
seeds and coarse cells made so far, cells taken, state of the pool.  Each turn takes the seed
given by the pool, makes its coarse cell, grown as described by `Grown`, and queues its
neighbours. -/
inductive IsoTrace (E : IsoEnv W F) (Grown : NMap Nat → Nat → List Nat → Prop) (agg0 : List Bool) (p0 : Pool) :
    List (Nat × NSet) → List Bool → Pool → Prop where
  | start : IsoTrace E Grown agg0 p0 [] agg0 p0
  | turn {cs : List (Nat × NSet)} {agg agg' : List Bool} {p p1 p2 : Pool} {seed order : Nat} {s : NSet} :
      IsoTrace E Grown agg0 p0 cs agg p → SeedChosen E.pool agg p (some seed) p1 →
      GrownCell E Grown agg seed order s → SeedsQueued E agg seed order s p1 p2 →
      (∀ i : Nat, agg'[i]? = if i ∈ s then some true else agg[i]?) →
      IsoTrace E Grown agg0 p0 (cs ++ [(seed, s)]) agg' p2

/-- What a call passes to the isotropic agglomeration: the graph and its geometry, boundary
counts limited to the dimension, the cardinalities, the number of iterations, the kinds of
neighbourhood, of aspect ratio and of seeds pool. -/
structure CallEnv (P : Platform) (a : Args W) (E : IsoEnv W (Feats W)) : Prop where
  cells : E.g.nbC = a.rowPtr.length - 1
  rowPtr : E.g.rowPtr = a.rowPtr
  colInd : E.g.colInd = a.colInd
  values : E.g.values = a.values
  volumes : E.g.volumes = a.volumes
  centers : E.g.centers = a.centers
  dim : (E.g.dim : Int) = a.dim
  nBnd : E.g.nBnd = a.nBnd.map (fun b => min b E.g.dim)
  minCard : (E.minCard : Int) = a.minCard
  goalCard : (E.goalCard : Int) = a.goalCard
  maxCard : (E.maxCard : Int) = a.maxCard
  fcIter : (E.fcIter : Int) = a.fcIter
  nbh : E.nbh = a.nbh
  ar : E.ar = arOf E.g P.hash a.aspect
  hash : E.h = P.hash
  kind : E.pool.kind = .boundary ↔ a.order = .boundary ∨ a.order = .boundaryOnePoint
  onePoint : E.pool.onePoint = true ↔ a.order = .boundaryOnePoint ∨ a.order = .neighbourhoodOnePoint
  prio : E.pool.prio = a.prio
  poolBnd : E.pool.nBnd = E.g.nBnd
  compliant : ∀ i, i ∈ E.g.compliant ↔ i ∈ a.compliant
  idxMax : E.pool.idxMax = P.idxMax
  intMax : E.intMax = P.intMax

end CoMMA
