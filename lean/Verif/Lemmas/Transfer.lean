import Verif.Spec.WholeCall
import Verif.Lemmas.WholeCall
/-! # Two calls with the same description

The two calls may compute with different types of numbers. -/

set_option linter.unusedSectionVars false

namespace CoMMA

variable {W W' F F' : Type} [Num W] [Num W']

/-- two pools that behave in the same way: same order of priorities -/
structure PoolAlike (c : PoolCfg W) (c' : PoolCfg W') : Prop where
  kind : c'.kind = c.kind
  one : c'.onePoint = c.onePoint
  nBnd : c'.nBnd = c.nBnd
  before : Before c'.prio = Before c.prio

variable {c : PoolCfg W} {c' : PoolCfg W'}

theorem PoolAlike.free (h : PoolAlike c c') : FreeOfLevel c' = FreeOfLevel c := by
  funext agg k l
  unfold FreeOfLevel PriorityOrdered
  rw [h.before, h.nBnd]

theorem PoolAlike.least (h : PoolAlike c c') : AtLeast c' = AtLeast c := by
  funext m l
  unfold AtLeast PriorityOrdered
  rw [h.before, h.nBnd]

theorem PoolAlike.wait (h : PoolAlike c c') : waitOn c' = waitOn c := by
  funext t w k
  unfold waitOn
  rw [h.kind, h.nBnd]

theorem SeedChosen.alike (h : PoolAlike c c') {agg : List Bool} {p p' : Pool} {o : Option Nat} (hs : SeedChosen c agg p o p') :
    SeedChosen c' agg p o p' := by
  cases hs with
  | off h1 => exact .off h1
  | waiting h1 h2 h3 h4 h5 h6 h7 h8 h9 => exact .waiting h1 (by rw [h.kind]; exact h2) h3 h4 h5 h6 h7 h8 h9
  | finished h1 h2 h3 h4 h5 h6 =>
    exact .finished h1 (by rw [h.kind]; exact h2) (by rw [h.nBnd]; exact h3) h4 h5 (by rw [h.kind]; exact h6)
  | otherLevel h1 h2 h3 h4 h5 h6 h7 h8 =>
    exact .otherLevel h1 (by rw [h.kind]; exact h2) (by rw [h.nBnd]; exact h3) h4 (by rw [h.free]; exact h5) h6 h7
      (by rw [h.kind]; exact h8)

theorem SeedsJoined.alike (h : PoolAlike c c') {s : NSet} {p p' : Pool} (hs : SeedsJoined c s p p') : SeedsJoined c' s p p' where
  size := hs.size
  queues := by rw [h.nBnd, h.kind, h.before]; exact hs.queues
  keep := by rw [h.kind]; exact hs.keep
  raise := by rw [h.nBnd, h.kind]; exact hs.raise

theorem JoinedInTurn.alike (h : PoolAlike c c') {gs : List NSet} {p p' : Pool} (hs : JoinedInTurn c gs p p') :
    JoinedInTurn c' gs p p' := by
  induction hs with
  | none => exact .none
  | next h1 _ ih => exact .next (h1.alike h) ih

theorem PoolStarted.alike (h : PoolAlike c c') {p : Pool} (hs : PoolStarted c p) : PoolStarted c' p :=
  ⟨by rw [h.nBnd, h.one, h.free]; exact hs.start⟩

theorem PoolAfterLines.alike (h : PoolAlike c c') {agg : List Bool} {w : List Nat} {p : Pool} (hs : PoolAfterLines c agg w p) :
    PoolAfterLines c' agg w p := by
  cases hs with
  | fresh h1 h2 => exact .fresh h1 (h2.alike h)
  | near h1 h2 h3 h4 h5 => exact .near (by rw [h.kind]; exact h1) h2 (by rw [h.nBnd]; exact h3) h4 (by rw [h.wait]; exact h5)
  | level h1 h2 h3 h4 h5 h6 =>
    exact .level (by rw [h.kind]; exact h1) h2 (by rw [h.nBnd]; exact h3) (by rw [h.nBnd]; exact h4) h5 (by rw [h.wait]; exact h6)
  | higher h1 h2 h3 h4 h5 h6 h7 h8 h9 =>
    exact .higher (by rw [h.kind]; exact h1) h2 (by rw [h.nBnd]; exact h3) h4 (by rw [h.nBnd]; exact h5)
      (by rw [h.nBnd]; exact h6) (by rw [h.least]; exact h7) h8 (by rw [h.wait, h.one]; exact h9)

/-- two isotropic agglomerations on the same graph with the same parameters; the order of the
priorities is the same -/
structure EnvAlike (E : IsoEnv W F) (E' : IsoEnv W' F') : Prop where
  rowPtr : E'.g.rowPtr = E.g.rowPtr
  colInd : E'.g.colInd = E.g.colInd
  nBnd : E'.g.nBnd = E.g.nBnd
  dim : E'.g.dim = E.g.dim
  nbh : E'.nbh = E.nbh
  fcIter : E'.fcIter = E.fcIter
  minCard : E'.minCard = E.minCard
  goalCard : E'.goalCard = E.goalCard
  maxCard : E'.maxCard = E.maxCard
  pool : PoolAlike E.pool E'.pool

variable {E : IsoEnv W F} {E' : IsoEnv W' F'}

theorem EnvAlike.cands (h : EnvAlike E E') {al : NSet} {xs l : List Nat} (hc : Candidates E.g E.nbh E.pool.prio al xs l) :
    Candidates E'.g E'.nbh E'.pool.prio al xs l := by
  unfold Candidates PriorityOrdered at *
  rw [h.nbh, h.rowPtr, h.colInd, h.pool.before, h.dim]
  exact hc

theorem EnvAlike.external (h : EnvAlike E E') : externalFaces E'.g = externalFaces E.g := by
  funext s
  unfold externalFaces
  rw [h.rowPtr, h.colInd, h.nBnd]

theorem GrownCell.alike (h : EnvAlike E E') {G G' : NMap Nat → Nat → List Nat → Prop}
    (hG : ∀ d xs, xs.length ≤ E.maxCard → G d xs.length xs → G' d xs.length xs) {agg : List Bool} {seed order : Nat} {s : NSet}
    (hc : GrownCell E G agg seed order s) : GrownCell E' G' agg seed order s := by
  unfold GrownCell at *
  rw [h.rowPtr, h.colInd, h.dim, h.maxCard, h.goalCard, h.minCard, h.external]
  obtain ⟨d, h1, h2, h3, h4, h5⟩ := hc
  refine ⟨d, h1, h2, h3, h4, fun hd => ?_⟩
  obtain ⟨xs, κ, m, g1, g2, g3, g4⟩ := h5 hd
  rw [← g3] at g1 ⊢
  exact ⟨xs, κ, m, hG _ _ (by rw [g3]; exact Nat.min_le_left _ _) g1, g2, rfl, g4⟩

theorem SeedsQueued.alike (h : EnvAlike E E') {agg : List Bool} {seed order : Nat} {s : NSet} {p p' : Pool}
    (hq : SeedsQueued E agg seed order s p p') : SeedsQueued E' agg seed order s p p' := by
  obtain ⟨gs, h1, h2, h3, h4, h5⟩ := hq
  refine ⟨gs, h1, ?_, ?_, ?_, h5.alike h.pool⟩
  · rw [h.rowPtr, h.colInd]; exact h2
  · rw [h.rowPtr, h.colInd]; exact h3
  · rw [h.rowPtr, h.colInd]; exact h4

theorem IsoTrace.alike (h : EnvAlike E E') {G G' : NMap Nat → Nat → List Nat → Prop}
    (hG : ∀ d xs, xs.length ≤ E.maxCard → G d xs.length xs → G' d xs.length xs) {agg0 agg : List Bool} {p0 p : Pool} {cs : List (Nat × NSet)}
    (ht : IsoTrace E G agg0 p0 cs agg p) : IsoTrace E' G' agg0 p0 cs agg p := by
  induction ht with
  | start => exact .start
  | turn _ h1 h2 h3 h4 ih => exact .turn ih (h1.alike h.pool) (h2.alike h hG) (h3.alike h) h4

theorem MapAfterLines.alike (h : EnvAlike E E') {G G' : NMap Nat → Nat → List Nat → Prop}
    (hG : ∀ d xs, xs.length ≤ E.maxCard → G d xs.length xs → G' d xs.length xs) {n : Nat} {gss : List (List (List Nat))} {f : List Nat}
    (hm : MapAfterLines E G n gss f) : MapAfterLines E' G' n gss f := by
  obtain ⟨agg0, p0, cs, agg, p, h1, h2, h3, h4, h5⟩ := hm
  refine ⟨agg0, p0, cs, agg, p, h1, ?_, h3.alike h hG, h4, h5⟩
  rw [h.rowPtr, h.colInd]
  exact h2.alike h.pool

/-- a relation between numbers that keeps comparisons and zero -/
structure OrderAlike (ρ : W → W' → Prop) : Prop where
  lt : ∀ x x' y y', ρ x x' → ρ y y' → Num.lt x' y' = Num.lt x y
  zero : ρ (Num.ofNat 0) (Num.ofNat 0)

theorem OrderAlike.refl : OrderAlike (Eq : W → W → Prop) :=
  ⟨fun _ _ _ _ h1 h2 => by rw [h1, h2], rfl⟩

theorem OrderAlike.symm {ρ : W → W' → Prop} (h : OrderAlike ρ) : OrderAlike (fun x y => ρ y x) :=
  ⟨fun x x' y y' h1 h2 => (h.lt x' x y' y h1 h2).symm, h.zero⟩

/-- the aspect ratios computed are related by `σ`, for features related by `R`; candidates for a
coarse cell are compared with one another only, so that `σ` may depend on its size -/
structure RatiosAlike (R : F → F → Prop) (σ : Nat → W → W → Prop) (A A' : ARComp W F) : Prop where
  init : ∀ s f, A.init s = .ok f → ∃ f', A'.init s = .ok f' ∧ R f f'
  step : ∀ c f f' cc n r f1, 0 < cc.card → c ∉ cc → R f f' → A.compute c f cc = .ok (n, r, f1) →
    ∃ r' f1', A'.compute c f' cc = .ok (n, r', f1') ∧ σ cc.card r r' ∧ R f1 f1'
  keeps : ∀ k, OrderAlike (σ k)

/-- cells that are joined one after the other, each next to one that is already there -/
inductive Grows (rp ci : List Nat) : List Nat → Prop where
  | seed (s : Nat) : Grows rp ci [s]
  | next {xs : List Nat} {y c : Nat} : Grows rp ci xs → c ∉ xs → y ∈ xs → Adj rp ci y c → Grows rp ci (xs ++ [c])

theorem Grows.ne_nil {rp ci xs : List Nat} (h : Grows rp ci xs) : xs ≠ [] := by
  cases h <;> simp

/-- As `RatiosAlike`, with relations between features that depend on the cells joined; only for coarse
cells of at most `m` cells that grow one cell after the other. -/
structure RatiosAgree (rp ci : List Nat) (m : Nat) (R : List Nat → F → F' → Prop) (σ : Nat → W → W' → Prop) (A : ARComp W F)
    (A' : ARComp W' F') : Prop where
  init : ∀ s f, A.init s = .ok f → ∃ f', A'.init s = .ok f' ∧ R [s] f f'
  step : ∀ c f f' xs n r f1, Grows rp ci (xs ++ [c]) → xs ≠ [] → c ∉ xs → xs.length < m → R xs f f' →
    A.compute c f (NSet.ofList xs) = .ok (n, r, f1) →
    ∃ r' f1', A'.compute c f' (NSet.ofList xs) = .ok (n, r', f1') ∧ σ (NSet.ofList xs).card r r' ∧ R (xs ++ [c]) f1 f1'
  keeps : ∀ k, OrderAlike (σ k)

theorem RatiosAlike.agree {R : F → F → Prop} {σ : Nat → W → W → Prop} {A A' : ARComp W F} (h : RatiosAlike R σ A A')
    (rp ci : List Nat) (m : Nat) : RatiosAgree rp ci m (fun _ => R) σ A A' where
  init := h.init
  step := by
    intro c f f' xs n r f1 _ hxs hc _ hf hn
    refine h.step _ _ _ _ _ _ _ ?_ (fun h => hc (NSet.mem_ofList.1 h)) hf hn
    obtain ⟨y, hy⟩ := List.exists_mem_of_ne_nil xs hxs
    exact NSet.card_pos_iff.2 ⟨y, NSet.mem_ofList.2 hy⟩
  keeps := h.keeps

variable {R : List Nat → F → F' → Prop} {ρ : W → W' → Prop} {σ : Nat → W → W' → Prop}

/-- merits that compare alike -/
structure MeritAlike (ρ : W → W' → Prop) (m : Merit W) (m' : Merit W') : Prop where
  faces : m'.faces = m.faces
  order : m'.order = m.order
  ar : ρ m.ar m'.ar

theorem MeritAlike.asGood (h : OrderAlike ρ) {m k : Merit W} {m' k' : Merit W'} (h1 : MeritAlike ρ m m') (h2 : MeritAlike ρ k k') :
    m'.AsGood k' ↔ m.AsGood k := by
  unfold Merit.AsGood
  rw [h1.faces, h1.order, h2.faces, h2.order, h.lt _ _ _ _ h2.ar h1.ar]

theorem MeritAlike.ahead (h : OrderAlike ρ) {m : Merit W} {m' : Merit W'} (h1 : MeritAlike ρ m m') (q : Nat) :
    MeritAlike ρ (m.ahead q) (m'.ahead q) := by
  unfold Merit.ahead
  rw [h1.faces, h.lt _ _ _ _ h.zero h1.ar]
  split
  · exact ⟨rfl, h1.order, h1.ar⟩
  · split
    · exact ⟨rfl, h1.order, h.zero⟩
    · exact h1

theorem FirstBest.alike (ho : OrderAlike ρ) {S : Nat → F → F' → Prop} {Q : Nat → Merit W → F → Prop}
    {Q' : Nat → Merit W' → F' → Prop} {l : List Nat} {x : Nat} {m : Merit W} {f : F}
    (hQ : ∀ y m f, y ∈ l → Q y m f → ∃ m' f', Q' y m' f' ∧ MeritAlike ρ m m' ∧ S y f f') (h : FirstBest Q l x m f) :
    ∃ m' f', FirstBest Q' l x m' f' ∧ MeritAlike ρ m m' ∧ S x f f' := by
  classical
  obtain ⟨μ, h1, h2, h3, pre, post, h4, h5⟩ := h
  have hx : x ∈ l := by rw [h4]; simp
  obtain ⟨mx, fx, _⟩ := hQ x _ _ hx (h1 x hx)
  have key : ∀ y, ∃ v : Merit W' × F', y ∈ l → Q' y v.1 v.2 ∧ MeritAlike ρ (μ y).1 v.1 ∧ S y (μ y).2 v.2 := by
    intro y
    by_cases hy : y ∈ l
    · obtain ⟨m', f', g1, g2⟩ := hQ y _ _ hy (h1 y hy)
      exact ⟨(m', f'), fun _ => ⟨g1, g2⟩⟩
    · exact ⟨(mx, fx), fun h => absurd h hy⟩
  choose ν hν using key
  obtain ⟨_, a1, a2⟩ := hν x hx
  rw [h2] at a1 a2
  refine ⟨(ν x).1, (ν x).2, ⟨ν, fun y hy => (hν y hy).1, rfl, ?_, pre, post, h4, ?_⟩, a1, a2⟩
  · intro y hy
    exact (a1.asGood ho (hν y hy).2.1).2 (h3 y hy)
  · intro y hy hg
    exact h5 y hy ((MeritAlike.asGood ho (hν y (by rw [h4]; simp [hy])).2.1 a1).1 hg)

theorem Candidates.inFront {g : Graph W} {kind : NbhKind} {prio : List W} {al : NSet} {xs l : List Nat}
    (h : Candidates g kind prio al xs l) {x : Nat} (hx : x ∈ l) : InFront g.rowPtr g.colInd al xs x := by
  cases kind with
  | extended => exact (h.1 x).1 hx
  | pureFront =>
    obtain ⟨_, h1, h2⟩ := h
    by_cases hlen : xs.length ≤ g.dim
    · exact (h1 hlen x).1 hx
    · rcases h2 (by omega) with ⟨rfl, _⟩ | ⟨_, i, y, _, h3, _⟩
      · simp at hx
      · exact ((h3 x).1 hx).1

theorem Candidates.grows {g : Graph W} {kind : NbhKind} {prio : List W} {al : NSet} {xs l : List Nat}
    (h : Candidates g kind prio al xs l) {x : Nat} (hx : x ∈ l) (hg : Grows g.rowPtr g.colInd xs) : Grows g.rowPtr g.colInd (xs ++ [x]) := by
  obtain ⟨_, h1, y, h2, h3⟩ := h.inFront hx
  exact .next hg h1 h2 h3

theorem LookAhead.alike (h : EnvAlike E E') {mx : Nat} (hR : RatiosAgree E.g.rowPtr E.g.colInd mx R σ E.ar E'.ar) {al : NSet}
    {d : NMap Nat} {k : Nat} :
    ∀ {xs : List Nat} {f : F} {f' : F'} {x : Nat} {m : Merit W} {f1 : F}, xs ≠ [] → x ∉ xs → Grows E.g.rowPtr E.g.colInd (xs ++ [x]) →
      xs.length + k < mx → R xs f f' → LookAhead E al d k xs f x m f1 →
      ∃ m' f1', LookAhead E' al d k xs f' x m' f1' ∧ MeritAlike (σ (NSet.ofList xs).card) m m' ∧ R (xs ++ [x]) f1 f1' := by
  have merit : ∀ {xs : List Nat} {f : F} {f' : F'} {x : Nat} {m : Merit W} {f1 : F}, xs ≠ [] → x ∉ xs →
      Grows E.g.rowPtr E.g.colInd (xs ++ [x]) → xs.length < mx → R xs f f' →
      HasMerit E d f (NSet.ofList xs) x m f1 →
      ∃ m' f1', HasMerit E' d f' (NSet.ofList xs) x m' f1' ∧ MeritAlike (σ (NSet.ofList xs).card) m m' ∧ R (xs ++ [x]) f1 f1' := by
    intro xs f f' x m f1 hxs hx hgr hlen hf hm
    obtain ⟨n, hn⟩ := hm.ar
    obtain ⟨r', f1', g1, g2, g3⟩ := hR.step _ _ _ _ _ _ _ hgr hxs hx hlen hf hn
    exact ⟨⟨m.faces, m.order, r'⟩, f1', ⟨by rw [h.rowPtr, h.colInd]; exact hm.faces, hm.order, n, g1⟩, ⟨rfl, rfl, g2⟩, g3⟩
  induction k with
  | zero => exact fun h1 h2 h3 h4 => merit h1 h2 h3 (by omega)
  | succ k ih =>
    intro xs f f' x m f1 hxs hx hgr hlen hf hl
    obtain ⟨m0, l, h1, h2, h3⟩ := hl
    obtain ⟨m0', f1', g1, g2, g3⟩ := merit hxs hx hgr (by omega) hf h1
    rcases h3 with ⟨h3, rfl⟩ | ⟨c2, m2, f2, h3, rfl⟩
    · exact ⟨m0', f1', ⟨m0', l, g1, h.cands h2, Or.inl ⟨h3, rfl⟩⟩, g2, g3⟩
    · obtain ⟨m2', f2', g4, _⟩ := h3.alike (hR.keeps _) (S := fun y => R (xs ++ [x] ++ [y])) (fun y m f hyl hy =>
        ih (by simp) (h2.inFront hyl).2.1 (h2.grows hyl hgr) (by simp; omega) g3 hy)
      exact ⟨_, f1', ⟨m0', l, g1, h.cands h2, Or.inr ⟨c2, m2', f2', g4, rfl⟩⟩,
        by rw [h.rowPtr, h.colInd]; exact g2.ahead (hR.keeps _) _, g3⟩

theorem GrownGreedily.alike (h : EnvAlike E E') {mx : Nat} (hR : RatiosAgree E.g.rowPtr E.g.colInd mx R σ E.ar E'.ar) {d : NMap Nat}
    {hi : Nat} {xs : List Nat} (hhi : hi ≤ mx) (hlen : xs.length ≤ hi) (hg : GrownGreedily E d hi xs) : GrownGreedily E' d hi xs := by
  obtain ⟨f, hf⟩ := hg
  suffices Grows E.g.rowPtr E.g.colInd xs ∧ ∃ f', GreedySeq E' d hi xs f' ∧ R xs f f' by
    obtain ⟨_, f', h1, _⟩ := this
    exact ⟨f', h1⟩
  induction hf with
  | seed h1 =>
    obtain ⟨f', g1, g2⟩ := hR.init _ _ h1
    exact ⟨.seed _, f', .seed g1, g2⟩
  | @next xs l f f1 c m _ h1 h2 ih =>
    rw [List.length_append, List.length_singleton] at hlen
    obtain ⟨hgr, f', g1, g2⟩ := ih (by omega)
    have hc : c ∈ l := by
      obtain ⟨_, _, _, _, pre, post, h4, _⟩ := h2
      rw [h4]; simp
    obtain ⟨m', f1', g3, _, g4⟩ := h2.alike (hR.keeps _) (S := fun y => R (xs ++ [y])) (fun y m f hyl hy =>
      LookAhead.alike h hR hgr.ne_nil (h1.inFront hyl).2.1 (h1.grows hyl hgr) (by omega) g2 hy)
    exact ⟨h1.grows hc hgr, f1', .next g1 (h.cands h1) (by rw [h.fcIter]; exact g3), g4⟩

/-! ## Lines -/

/-- the directions of the steps between cells are related one by one, with the same cosines -/
structure StepsAlike (δ : List W → List W → Prop) (g g' : Graph W) : Prop where
  step : ∀ i n d, StepDir g i n d → ∃ d', δ d d' ∧ StepDir g' i n d'
  back : ∀ i n d', StepDir g' i n d' → ∃ d, δ d d' ∧ StepDir g i n d
  cos : ∀ d d' e e', δ d d' → δ e e' → scalar d' e' = scalar d e
  neg : ∀ d d', δ d d' → δ (d.map Num.neg) (d'.map Num.neg)

theorem StepsAlike.symm {δ : List W → List W → Prop} {g g' : Graph W} (h : StepsAlike δ g g') : StepsAlike (fun d d' => δ d' d) g' g :=
  ⟨h.back, h.step, fun d d' e e' h1 h2 => (h.cos d' d e' e h1 h2).symm, fun d d' h1 => h.neg d' d h1⟩

theorem StepsAlike.same {g g' : Graph W} (h : StepDir g' = StepDir g) : StepsAlike Eq g g' :=
  ⟨fun i n d hd => ⟨d, rfl, by rw [h]; exact hd⟩, fun i n d hd => ⟨d, rfl, by rw [← h]; exact hd⟩,
    fun d d' e e' h1 h2 => by rw [h1, h2], fun d d' h1 => by rw [h1]⟩

/-- two meshes on which lines grow in the same way: directions with the same cosines, couplings
that compare alike, also with 0.9 times others -/
structure GrowthAlike (ρ : W → W → Prop) (g g' : Graph W) (coupling : Coupling) : Prop where
  rowPtr : g'.rowPtr = g.rowPtr
  colInd : g'.colInd = g.colInd
  step : ∃ δ, StepsAlike δ g g'
  keeps : OrderAlike ρ
  tenth : ∀ m m' w w', ρ m m' → ρ w w' → Num.lt (Num.mul Num.c090 m') w' = Num.lt (Num.mul Num.c090 m) w
  coup : ∀ i n w, CouplingOf g coupling i n w → ∃ w', ρ w w' ∧ CouplingOf g' coupling i n w'
  back : ∀ i n w', CouplingOf g' coupling i n w' → ∃ w, ρ w w' ∧ CouplingOf g coupling i n w

variable {ρ : W → W → Prop} {g g' : Graph W} {coupling : Coupling}

theorem GrowthAlike.symm (h : GrowthAlike ρ g g' coupling) : GrowthAlike (fun x y => ρ y x) g' g coupling :=
  ⟨h.rowPtr.symm, h.colInd.symm, by obtain ⟨δ, hd⟩ := h.step; exact ⟨_, hd.symm⟩, h.keeps.symm,
    fun m m' w w' h1 h2 => (h.tenth m' m w' w h1 h2).symm, h.back, h.coup⟩

theorem GrowthAlike.turned {δ : List W → List W → Prop} (h1 : g'.rowPtr = g.rowPtr) (h2 : g'.colInd = g.colInd)
    (h3 : StepsAlike δ g g') (h4 : CouplingOf g' coupling = CouplingOf g coupling) : GrowthAlike Eq g g' coupling :=
  ⟨h1, h2, ⟨δ, h3⟩, .refl, fun _ _ _ _ e1 e2 => by rw [e1, e2], fun _ _ w hw => ⟨w, rfl, by rw [h4]; exact hw⟩,
    fun _ _ w hw => ⟨w, rfl, by rw [← h4]; exact hw⟩⟩

theorem GrowthAlike.same (h1 : g'.rowPtr = g.rowPtr) (h2 : g'.colInd = g.colInd) (h3 : StepDir g' = StepDir g)
    (h4 : CouplingOf g' coupling = CouplingOf g coupling) : GrowthAlike Eq g g' coupling :=
  .turned h1 h2 (.same h3) h4

theorem StepsAlike.ahead {δ : List W → List W → Prop} (h : StepsAlike δ g g') {d d' : List W} (hd : δ d d') :
    Ahead g' d' = Ahead g d := by
  funext i n c
  unfold Ahead
  refine propext ⟨?_, ?_⟩
  · rintro ⟨e', h1, h2, h3⟩
    obtain ⟨e, h4, h5⟩ := h.back i n e' h1
    exact ⟨e, h5, by rw [h2, h.cos _ _ _ _ hd h4], h3⟩
  · rintro ⟨e, h1, h2, h3⟩
    obtain ⟨e', h4, h5⟩ := h.step i n e h1
    exact ⟨e', h5, by rw [h2, h.cos _ _ _ _ hd h4], h3⟩

theorem GrowthAlike.strongest (h : GrowthAlike ρ g g' coupling) {i : Nat} {m : W} (hm : StrongestOf g coupling i m) :
    ∃ m', ρ m m' ∧ StrongestOf g' coupling i m' := by
  obtain ⟨h1, h2⟩ := hm
  have key : ∀ m', ρ m m' → ∀ n w', CouplingOf g' coupling i n w' → Num.lt m' w' = false := by
    intro m' hr n w' hw
    obtain ⟨w, e1, e2⟩ := h.back i n w' hw
    rw [h.keeps.lt _ _ _ _ hr e1]
    exact h1 n w e2
  rcases h2 with ⟨n, hn⟩ | rfl
  · obtain ⟨m', e1, e2⟩ := h.coup i n m hn
    exact ⟨m', e1, key m' e1, Or.inl ⟨n, e2⟩⟩
  · exact ⟨_, h.keeps.zero, key _ h.keeps.zero, Or.inr rfl⟩

theorem GrowthAlike.strong (h : GrowthAlike ρ g g' coupling) {i n : Nat} {w : W} (hs : StrongCoupling g coupling i n w) :
    ∃ w', ρ w w' ∧ StrongCoupling g' coupling i n w' := by
  obtain ⟨h1, m, h2, h3⟩ := hs
  obtain ⟨w', e1, e2⟩ := h.coup i n w h1
  obtain ⟨m', e3, e4⟩ := h.strongest h2
  exact ⟨w', e1, e2, m', e4, by rw [h.tenth _ _ _ _ e3 e1]; exact h3⟩

theorem GrowthAlike.byCoupling (h : GrowthAlike ρ g g' coupling) {free : Nat → Prop} {i n : Nat} {w : W}
    (hs : ByCoupling g coupling free i n w) : ∃ w', ρ w w' ∧ ByCoupling g' coupling free i n w' := by
  obtain ⟨w', e1, e2⟩ := h.strong hs.2
  exact ⟨w', e1, hs.1, e2⟩

theorem GrowthAlike.noneStrong (h : GrowthAlike ρ g g' coupling) {free : Nat → Prop} {i : Nat}
    (hs : NoneOf (ByCoupling g coupling free i)) : NoneOf (ByCoupling g' coupling free i) := by
  intro n w hw
  obtain ⟨w', _, e2⟩ := h.symm.byCoupling hw
  exact hs n w' e2

theorem GrowthAlike.bestStrong (h : GrowthAlike ρ g g' coupling) {free : Nat → Prop} {i x : Nat}
    (hs : BestOf (ByCoupling g coupling free i) x) : BestOf (ByCoupling g' coupling free i) x := by
  obtain ⟨w, h1, h2⟩ := hs
  obtain ⟨w', e1, e2⟩ := h.byCoupling h1
  refine ⟨w', e2, fun n v' hv => ?_⟩
  obtain ⟨v, e3, e4⟩ := h.symm.byCoupling hv
  rw [h.keeps.lt _ _ _ _ e1 e3, h.keeps.lt _ _ _ _ e3 e1]
  exact h2 n v e4

theorem GrowthAlike.byDirection (h : GrowthAlike ρ g g' coupling) {δ : List W → List W → Prop} (hs : StepsAlike δ g g')
    {free : Nat → Prop} {d d' : List W} (hd : δ d d') : ByDirection g' coupling free d' = ByDirection g coupling free d := by
  funext i n w
  unfold ByDirection
  rw [hs.ahead hd]
  refine propext (and_congr Iff.rfl (and_congr ⟨?_, ?_⟩ Iff.rfl))
  · rintro ⟨v, hv⟩
    obtain ⟨v', _, e⟩ := h.symm.strong hv
    exact ⟨v', e⟩
  · rintro ⟨v, hv⟩
    obtain ⟨v', _, e⟩ := h.strong hv
    exact ⟨v', e⟩

theorem GrowthAlike.anyDirection (h : GrowthAlike ρ g g' coupling) {δ : List W → List W → Prop} (hs : StepsAlike δ g g')
    {free : Nat → Prop} {d d' : List W} (hd : δ d d') : AnyDirection g' free d' = AnyDirection g free d := by
  funext i n w
  unfold AnyDirection
  rw [h.rowPtr, h.colInd, hs.ahead hd]

/-- related directions of a line, or no direction yet -/
def DirAlike (δ : List W → List W → Prop) : Option (List W) → Option (List W) → Prop
  | none, none => True
  | some d, some d' => δ d d'
  | _, _ => False

theorem NextCell.alike (h : GrowthAlike ρ g g' coupling) {δ : List W → List W → Prop} (hs : StepsAlike δ g g') {force : Bool}
    {free : Nat → Prop} {d d' : Option (List W)} {i : Nat} {o : Option Nat} (hd : DirAlike δ d d')
    (hn : NextCell g coupling force free d i o) : NextCell g' coupling force free d' i o := by
  have hnone : ∀ {d d'}, DirAlike δ d d' → (force = false ∨ d = none) → (force = false ∨ d' = none) := by
    rintro d d' hd (h1 | rfl)
    · exact Or.inl h1
    · cases d' with
      | none => exact Or.inr rfl
      | some d' => exact hd.elim
  cases hn with
  | strongest h1 h2 => exact .strongest (hnone hd h1) (h.bestStrong h2)
  | noStrong h1 h2 => exact .noStrong (hnone hd h1) (h.noneStrong h2)
  | straight h1 h2 =>
    cases d' with
    | none => exact hd.elim
    | some d' => exact .straight h1 (by rw [h.byDirection hs hd]; exact h2)
  | loose h1 h2 h3 =>
    cases d' with
    | none => exact hd.elim
    | some d' => exact .loose h1 (by rw [h.byDirection hs hd]; exact h2) (by rw [h.anyDirection hs hd]; exact h3)
  | noWay h1 h2 h3 =>
    cases d' with
    | none => exact hd.elim
    | some d' => exact .noWay h1 (by rw [h.byDirection hs hd]; exact h2) (by rw [h.anyDirection hs hd]; exact h3)

theorem LineWalk.alike (h : GrowthAlike ρ g g' coupling) {δ : List W → List W → Prop} (hs : StepsAlike δ g g') {force : Bool}
    {free : Nat → Prop} {d d' : Option (List W)} {i : Nat} {l : List Nat} (hd : DirAlike δ d d')
    (hn : LineWalk g coupling force free d i l) : LineWalk g' coupling force free d' i l := by
  induction hn generalizing d' with
  | stop h1 => exact .stop (h1.alike h hs hd)
  | step h1 h2 _ ih =>
    obtain ⟨e', h3, h4⟩ := hs.step _ _ _ h2
    exact .step (h1.alike h hs hd) h4 (ih h3)

theorem LineFrom.alike (h : GrowthAlike ρ g g' coupling) {force : Bool} {free : Nat → Prop} {p : Nat}
    {l : List Nat} (hn : LineFrom g coupling force free p l) : LineFrom g' coupling force free p l := by
  obtain ⟨δ, hs⟩ := h.step
  cases hn with
  | alone h1 => exact .alone (LineWalk.alike h hs (by trivial : DirAlike δ none none) h1)
  | both h1 h2 h3 =>
    obtain ⟨e', h4, h5⟩ := hs.step _ _ _ h2
    exact .both (LineWalk.alike h hs (by trivial : DirAlike δ none none) h1) h5
      (LineWalk.alike h hs (show DirAlike δ (some _) (some _) from hs.neg _ _ h4) h3)

theorem LinesFrom.alike (h : GrowthAlike ρ g g' coupling) {force : Bool} {free : Nat → Prop} {ps : List Nat}
    {ls : List (List Nat)} (hn : LinesFrom g coupling force free ps ls) : LinesFrom g' coupling force free ps ls := by
  induction hn with
  | done => exact .done
  | taken h1 _ ih => exact .taken h1 ih
  | single h1 h2 _ ih => exact .single h1 (h2.alike h) ih
  | line h1 h2 h3 _ ih => exact .line h1 (h2.alike h) h3 ih

/-! ## Whole calls -/

/-- the same call on other data -/
def Args.withData (a : Args W) (values volumes : List W) (centers : List (List W)) (prio : List W) : Args W :=
  { a with values := values, volumes := volumes, centers := centers, prio := prio }

/-- two calls that differ in data with the same effect on lines -/
structure LinesAlike (a a' : Args W) : Prop where
  before : Before a'.prio = Before a.prio
  front : ∀ nb, FrontFirst nb a'.prio = FrontFirst nb a.prio
  built : a.isAniso = true → a.buildLines = true →
    IsAnisotropic (graphOf a') = IsAnisotropic (graphOf a) ∧ ∃ ρ, GrowthAlike ρ (graphOf a) (graphOf a') (meantCoupling a)

/-- the same call on data of another type -/
def Args.over (a : Args W) (values volumes : List W') (centers : List (List W')) (prio : List W') (thr : W') : Args W' where
  rowPtr := a.rowPtr
  colInd := a.colInd
  values := values
  volumes := volumes
  centers := centers
  prio := prio
  compliant := a.compliant
  nBnd := a.nBnd
  buildLines := a.buildLines
  isAniso := a.isAniso
  oddLine := a.oddLine
  thr := thr
  order := a.order
  correction := a.correction
  dim := a.dim
  goalCard := a.goalCard
  minCard := a.minCard
  maxCard := a.maxCard
  aspect := a.aspect
  singThresh := a.singThresh
  maxCells := a.maxCells
  coupling := a.coupling
  forceDir := a.forceDir
  fcIter := a.fcIter
  nbh := a.nbh

/-- two calls that take the same lines and order cells by priority alike -/
structure CallAlike (a : Args W) (a' : Args W') (o : Outs) (n : Nat) : Prop where
  before : Before a'.prio = Before a.prio
  front : ∀ nb, FrontFirst nb a'.prio = FrontFirst nb a.prio
  takes : ∀ fls, TakesLines (graphOf a) a o n fls → TakesLines (graphOf a') a' o n fls
  mode : ValidMode (graphOf a') a' o n

variable {a : Args W} {v w : List W} {x : List (List W)} {q : List W} {o : Outs} {n : Nat}
variable {v' w' : List W'} {x' : List (List W')} {q' : List W'} {t' : W'}

theorem LinesAlike.symm (h : LinesAlike a (a.withData v w x q)) : LinesAlike (a.withData v w x q) a :=
  ⟨h.before.symm, fun nb => (h.front nb).symm, fun h1 h2 => by
    obtain ⟨h3, ρ, h4⟩ := h.built h1 h2
    exact ⟨h3.symm, _, h4.symm⟩⟩

theorem TakesLines.alike (h : LinesAlike a (a.withData v w x q)) {fls : List (List Nat)} (ht : TakesLines (graphOf a) a o n fls) :
    TakesLines (graphOf (a.withData v w x q)) (a.withData v w x q) o n fls := by
  cases ht with
  | built h1 h2 h3 h4 h5 =>
    obtain ⟨g1, ρ, g2⟩ := h.built h1.on h1.build
    refine .built ⟨h1.on, h1.build, h1.compliant, h1.isolated⟩ ?_ h3 ?_ (h5.alike g2)
    · rw [g1]; exact h2
    · unfold PriorityOrdered at *
      rw [h.before]
      exact h4
  | given h1 => exact .given ⟨h1.on, h1.build, h1.enc, h1.data, h1.disjoint, h1.range⟩

theorem ValidMode.alike (h : LinesAlike a (a.withData v w x q)) (hm : ValidMode (graphOf a) a o n) :
    ValidMode (graphOf (a.withData v w x q)) (a.withData v w x q) o n := by
  refine ⟨?_, fun fls ht => ?_⟩
  · rcases hm.mode with h1 | ⟨h1, h2⟩ | ⟨ls, h1⟩
    · exact Or.inl h1
    · refine Or.inr (Or.inl ⟨⟨h1.on, h1.build, h1.compliant, h1.isolated⟩, ?_⟩)
      obtain ⟨_, ρ, h3⟩ := h.built h1.on h1.build
      intro i j w' hw
      obtain ⟨w0, e1, e2⟩ := h3.back i j w' hw
      rw [h3.keeps.lt _ _ _ _ e1 h3.keeps.zero]
      exact h2 i j w0 e2
    · exact Or.inr (Or.inr ⟨ls, h1.on, h1.build, h1.enc, h1.data, h1.disjoint, h1.range⟩)
  · exact hm.fits fls (TakesLines.alike (a := a.withData v w x q) (v := a.values) (w := a.volumes) (x := a.centers) (q := a.prio)
      h.symm ht)

theorem LinesAlike.call (h : LinesAlike a (a.withData v w x q)) (hm : ValidMode (graphOf a) a o n) :
    CallAlike a (a.over v w x q a.thr) o n :=
  ⟨h.before, h.front, fun _ ht => TakesLines.alike h ht, hm.alike h⟩

theorem LinesOfCall.alike (h : CallAlike a (a.over v' w' x' q' t') o n) {gss : List (List (List Nat))} {out : Outs}
    (hc : LinesOfCall (graphOf a) a o n gss out) :
    LinesOfCall (graphOf (a.over v' w' x' q' t')) (a.over v' w' x' q' t') o n gss out := by
  cases hc with
  | off h1 h2 h3 h4 => exact .off h1 h2 h3 h4
  | on h1 h2 h3 h4 =>
    refine .on (h.takes _ h1) (h2.imp ?_) h3 h4
    rintro line groups ⟨l, ⟨fr, bk, g1, g2, g3⟩, g4⟩
    exact ⟨l, ⟨fr, bk, g1, g2, by rw [h.front]; exact g3⟩, g4⟩

theorem correct_data (h : Hash) (k : Cont) :
    k.correct (graphOf (a.over v' w' x' q' t')) h = k.correct (graphOf a) h := rfl

theorem poolAlike {P : Platform} (hb : Before q' = Before a.prio) {c : PoolCfg W} {c' : PoolCfg W'} (hc : PoolMade P a c)
    (hc' : PoolMade P (a.over v' w' x' q' t') c') : PoolAlike c c' := by
  have h1 := hc.eq
  have h2 := hc'.eq
  unfold poolOf at h1 h2
  rw [show (a.over v' w' x' q' t').order = a.order from rfl] at h2
  cases ho : a.order <;> rw [ho] at h1 h2 <;> cases h1 <;> cases h2 <;> exact ⟨rfl, rfl, rfl, hb⟩

/-- two containers with the same cells are equal -/
theorem cont_unique {rp ci : List Nat} {n m t : Nat} {k k' : Cont} (hk : CInv n k) (hk' : CInv n k') (ht : k.thresh = t)
    (ht' : k'.thresh = t) (ha : k.nbAgg = n) (ha' : k'.nbAgg = n)
    (hf : ∀ i j : Nat, k.fc2cc[i]? = some (some j) ↔ k'.fc2cc[i]? = some (some j))
    (hl : ∀ j cc, j < m → k.ccs.find? j = some cc → cc.iso = false ∧ cc.compact = 1)
    (hl' : ∀ j cc, j < m → k'.ccs.find? j = some cc → cc.iso = false ∧ cc.compact = 1)
    (hi : ∀ j cc, m ≤ j → k.ccs.find? j = some cc → cc.iso = true ∧ IsCompactness rp ci cc.fcs cc.compact)
    (hi' : ∀ j cc, m ≤ j → k'.ccs.find? j = some cc → cc.iso = true ∧ IsCompactness rp ci cc.fcs cc.compact) : k = k' := by
  have hfc : k.fc2cc = k'.fc2cc := by
    apply List.ext_getElem?
    intro i
    by_cases hin : i < n
    · obtain ⟨j, hj⟩ := hk.complete ha hin
      rw [hj, (hf i j).1 hj]
    · rw [List.getElem?_eq_none (by rw [hk.lenF]; omega), List.getElem?_eq_none (by rw [hk'.lenF]; omega)]
  have used : ∀ {k : Cont}, CInv n k → ∀ j, j < k.counter ↔ ∃ i : Nat, k.fc2cc[i]? = some (some j) := by
    intro k hk j
    constructor
    · intro hj
      obtain ⟨cc, hcc⟩ := NMap.mem_keys.1 ((hk.keys j).2 hj)
      obtain ⟨h1, h2⟩ := hk.card j cc hcc
      rw [h1] at h2
      obtain ⟨i, hi⟩ := NSet.card_pos_iff.1 h2
      exact ⟨i, (hk.part j cc hcc i).1 hi⟩
    · rintro ⟨i, hi⟩
      exact hk.range i j hi
  have hcnt : k.counter = k'.counter := by
    have : ∀ j, j < k.counter ↔ j < k'.counter := fun j => by rw [used hk, used hk', hfc]
    have h1 := this k.counter
    have h2 := this k'.counter
    omega
  have hagg : k.agg = k'.agg := by
    apply List.ext_getElem?
    intro i
    by_cases hin : i < n
    · obtain ⟨j, hj⟩ := hk.complete ha hin
      rw [(hk.agg i).2 ⟨j, hj⟩, (hk'.agg i).2 ⟨j, (hf i j).1 hj⟩]
    · rw [List.getElem?_eq_none (by rw [hk.lenA]; omega), List.getElem?_eq_none (by rw [hk'.lenA]; omega)]
  have hccs : k.ccs = k'.ccs := by
    apply NMap.ext
    intro j
    cases hc : k.ccs.find? j with
    | none =>
      cases hc' : k'.ccs.find? j with
      | none => rfl
      | some cc' =>
        have := (hk.keys j).2 (by rw [hcnt]; exact (hk'.keys j).1 (NMap.mem_keys.2 ⟨cc', hc'⟩))
        obtain ⟨cc, h1⟩ := NMap.mem_keys.1 this
        rw [hc] at h1
        cases h1
    | some cc =>
      obtain ⟨cc', hc'⟩ := NMap.mem_keys.1 ((hk'.keys j).2 (by rw [← hcnt]; exact (hk.keys j).1 (NMap.mem_keys.2 ⟨cc, hc⟩)))
      rw [hc']
      have e1 : cc.fcs = cc'.fcs := by
        apply NSet.ext
        intro i
        rw [hk.part j cc hc, hk'.part j cc' hc', hfc]
      have e2 : cc.card = cc'.card := by rw [(hk.card j cc hc).1, (hk'.card j cc' hc').1, e1]
      have e3 : cc.compact = cc'.compact ∧ cc.iso = cc'.iso := by
        by_cases hj : j < m
        · rw [(hl j cc hj hc).1, (hl j cc hj hc).2, (hl' j cc' hj hc').1, (hl' j cc' hj hc').2]
          exact ⟨rfl, rfl⟩
        · obtain ⟨a1, a2⟩ := hi j cc (by omega) hc
          obtain ⟨b1, b2⟩ := hi' j cc' (by omega) hc'
          rw [← e1] at b2
          exact ⟨a2.unique b2, by rw [a1, b1]⟩
      cases cc
      cases cc'
      simp only at e1 e2 e3
      rw [e1, e2, e3.1, e3.2]
  have hsing : k.singular = k'.singular := by
    refine sorted_ext hk.singSorted hk'.singSorted (fun j => ?_)
    rw [hk.sing, hk'.sing, hccs, ht, ht']
  have e1 := hk.nbAgg
  have e2 := hk'.nbAgg
  have e3 := hk.delayed
  have e4 := hk'.delayed
  cases k
  cases k'
  simp only at *
  subst hfc hcnt hagg hccs hsing
  rw [ha, ha', ht, ht', e3, e4]

/-- the container after the isotropic phase of a described call -/
theorem Described.grown {P : Platform} (hm : ValidMesh a n) (hp : ValidParams P a)
    (hu : UniqueRows a.rowPtr a.colInd) (hl : NoSelfLoop a.rowPtr a.colInd) {c : PoolCfg W} {k : Cont} {p : Pool} {idx lines : List Nat}
    {gss : List (List (List Nat))} (hd : Described P a o n c k p idx lines gss) :
    ∃ k1 p1 f0, Grown P a o n k c p p1 k1 ∧
      agglomerateOneLevel P { a with correction := false } o = (⟨f0, idx, lines⟩, .ok ()) ∧
      MapAfterLines (isoEnvOf P a c) (GrownGreedily (isoEnvOf P a c)) n gss f0 ∧
      (∀ (i : Nat) j, f0[i]? = some j ↔ k1.fc2cc[i]? = some (some j)) ∧ CInv n k1 ∧ k1.thresh = (effThresh a).toNat ∧
      (∀ j cc, j < gss.flatten.length → k1.ccs.find? j = some cc → cc.iso = false ∧ cc.compact = 1) ∧
      ∀ j cc, gss.flatten.length ≤ j → k1.ccs.find? j = some cc → cc.iso = true ∧ IsCompactness a.rowPtr a.colInd cc.fcs cc.compact := by
  have hn : (isoEnvOf P a c).g.nbC = n := graphOf_nbC hm
  obtain ⟨k1, p1, hg⟩ := grown_ok hm hp hd.start
  have hci : CInv n k1 := by have := hg.inv.cinv; rwa [hn] at this
  have hg' : Grown P a.uncorrected o n k c p p1 k1 := ⟨hg.eq, hg.inv, hg.all⟩
  obtain ⟨f0, g1, g2, g3, _⟩ := run_plain hp.uncorrected hd.start.uncorrected hm.uncorrected hg' rfl
  obtain ⟨f1, e1, e2⟩ := hd.map
  have e3 : f1 = f0 := by
    have : agglomerateOneLevel P { a with correction := false } o = (⟨f0, idx, lines⟩, .ok ()) := g1
    rw [e1] at this
    cases this
    rfl
  subst e3
  refine ⟨k1, p1, f1, hg, e1, e2, g3, hci, by rw [hg.inv.thresh, hd.start.thresh], ?_, ?_⟩
  · intro j cc hj hc
    rw [← hd.counter] at hj
    rw [hg.inv.old j hj] at hc
    refine ⟨hd.start.aniso j cc hc, ?_⟩
    rw [hd.counter] at hj
    have := hd.made.new j _ (List.getElem?_eq_getElem hj)
    rw [show (Cont.new n (effThresh a).toNat).counter = 0 from rfl, Nat.zero_add, hc] at this
    cases this
    rfl
  · intro j cc hj hc
    rw [← hd.counter] at hj
    obtain ⟨h1, h2⟩ := hg.inv.iso j cc hj hc
    exact ⟨h1, h2.compact hu hl⟩

/-- the end of a call: correction and final copy -/
def finishCall (o : Outs) (idx lines : List Nat) (r : M Cont) : Outs × M Unit :=
  match r with
  | .error e => (⟨o.fcToCc, idx, lines⟩, .error e)
  | .ok k' =>
    match fillFcToCc k' with
    | .error e => (⟨filledBefore k', idx, lines⟩, .error e)
    | .ok f => (⟨f, idx, lines⟩, .ok ())

theorem call_finish {P : Platform} {c : PoolCfg W} {k : Cont} {p : Pool} {idx lines : List Nat}
    (h : Start P a o c n k p idx lines) (hasp : a.aspect ≠ .unknown) {k1 : Cont} {p1 : Pool}
    (hg : Grown P a o n k c p p1 k1) : agglomerateOneLevel P a o = finishCall o idx lines (correctIf P a k1) := by
  have this : isoPhase P a c k p = correctIf P a k1 := by
    unfold isoPhase
    rw [decide_eq_true hasp, checkArg_true, ok_bind, hg.eq, ok_bind]
  unfold agglomerateOneLevel
  rw [h.check]
  simp only
  unfold runPhases
  rw [h.eq]
  simp only
  rw [this]
  rfl

/-- calls that differ in data, maybe of another type, but not in lines, in comparisons of priorities
and of aspect ratios give the same result -/
theorem same_call_over {P : Platform} (hm : ValidMesh a n) (hp : ValidParams P a) (hm' : ValidMesh (a.over v' w' x' q' t') n)
    (hp' : ValidParams P (a.over v' w' x' q' t')) (hW : LawfulLt W) (hW' : LawfulLt W') (hu : UniqueRows a.rowPtr a.colInd)
    (hl : NoSelfLoop a.rowPtr a.colInd) (hmode : ValidMode (graphOf a) a o n) (h : CallAlike a (a.over v' w' x' q' t') o n)
    {R : List Nat → Feats W → Feats W' → Prop} {σ : Nat → W → W' → Prop}
    (hR : RatiosAgree a.rowPtr a.colInd (cardOr 5 10 a.dim a.maxCard) R σ (arOf (graphOf a) P.hash a.aspect)
      (arOf (graphOf (a.over v' w' x' q' t')) P.hash a.aspect)) :
    agglomerateOneLevel P (a.over v' w' x' q' t') o = agglomerateOneLevel P a o := by
  obtain ⟨c, k, p, idx, lines, gss, hd⟩ := described hm hp hW hu hl hmode
  obtain ⟨c', k', p', idx', lines', gss', hd'⟩ := described hm' hp' hW' hu hl h.mode
  obtain ⟨k1, p1, f0, g1, g2, g3, g4, g5, g6, g7, g8⟩ := hd.grown hm hp hu hl
  obtain ⟨k1', p1', f0', b1, b2, b3, b4, b5, b6, b7, b8⟩ := hd'.grown hm' hp' hu hl
  have hE : EnvAlike (isoEnvOf P a c) (isoEnvOf P (a.over v' w' x' q' t') c') :=
    ⟨rfl, rfl, rfl, rfl, rfl, rfl, rfl, rfl, rfl, poolAlike h.before hd.start.made hd'.start.made⟩
  obtain ⟨rfl, e1, e2⟩ := ((hd.rows f0).alike h).unique hW' (hd'.rows f0)
  simp only at e1 e2
  subst e1 e2
  obtain rfl := (g3.alike hE (fun _ _ hlen hg => GrownGreedily.alike hE hR hlen le_rfl hg)).unique hW' (determined_greedy hW' _) b3
  obtain rfl : k1 = k1' := cont_unique g5 b5 g6 b6 g1.all b1.all (fun i j => by rw [← g4, ← b4]) g7 b7 g8 b8
  rw [call_finish hd.start hp.aspect g1, call_finish hd'.start hp'.aspect b1]
  rfl

/-- calls that differ in data but not in comparisons of priorities, in the growth of lines and
in the aspect ratios give the same result -/
theorem same_call {P : Platform} (hm : ValidMesh a n) (hp : ValidParams P a) (hm' : ValidMesh (a.withData v w x q) n)
    (hp' : ValidParams P (a.withData v w x q)) (hW : LawfulLt W) (hu : UniqueRows a.rowPtr a.colInd)
    (hl : NoSelfLoop a.rowPtr a.colInd) (hmode : ValidMode (graphOf a) a o n) (h : LinesAlike a (a.withData v w x q))
    {R : Feats W → Feats W → Prop} {σ : Nat → W → W → Prop}
    (hR : RatiosAlike R σ (arOf (graphOf a) P.hash a.aspect) (arOf (graphOf (a.withData v w x q)) P.hash a.aspect)) :
    agglomerateOneLevel P (a.withData v w x q) o = agglomerateOneLevel P a o :=
  same_call_over (v' := v) (w' := w) (x' := x) (q' := q) (t' := a.thr) hm hp hm' hp' hW hW hu hl hmode (h.call hmode)
    (hR.agree _ _ _)

end CoMMA
