import Verif.Lemmas.GridCubeTwo
import Verif.Props.Growth
import Verif.Props.Features
import Verif.Props.AnyThreshold
/-! # C91, C92: structured meshes are coarsened into blocks -/

namespace CoMMA

variable {W : Type} [Num W]
variable {D : Nat} {ext : Nat → Nat} {n : Nat} {pos : Nat → Nat → Nat} {R : Nat → Nat → Prop}

/-- a block has at least `2 ^ D` cells -/
theorem EvenGrid.block_list (G : EvenGrid D ext n pos R) {s : Nat} (hs : s < n) :
    ∃ L : List Nat, L.Nodup ∧ L.length = 2 ^ D ∧ ∀ x ∈ L, x < n ∧ SameBlock D (pos x) (pos s) := by
  choose f hf using fun i : Nat => G.exists_bit hs (fun ax => i.testBit ax)
  refine ⟨(List.range (2 ^ D)).map f, ?_, by simp, ?_⟩
  · apply List.Nodup.map_on _ List.nodup_range
    intro i hi j hj hij
    rw [List.mem_range] at hi hj
    apply Nat.eq_of_testBit_eq
    intro ax
    by_cases hax : ax < D
    · have h1 := (hf i).2 ax hax
      have h2 := (hf j).2 ax hax
      rw [hij, h2] at h1
      have := (flip2_spec (pos s ax)).2.2
      cases hi' : i.testBit ax <;> cases hj' : j.testBit ax <;> simp [hi', hj'] at h1 ⊢ <;> omega
    · have hle : 2 ^ D ≤ 2 ^ ax := Nat.pow_le_pow_right (by omega) (by omega)
      rw [Nat.testBit_lt_two_pow (by omega), Nat.testBit_lt_two_pow (by omega)]
  · intro x hx
    obtain ⟨i, _, rfl⟩ := List.mem_map.1 hx
    exact ⟨(hf i).1, (hf i).block⟩

/-- from the growth of single coarse cells to the result of a call -/
theorem structured {P : Platform} {a : Args W} {o : Outs} (hm : ValidMesh a n) (hp : ValidParams P a) (hW : LawfulLt W)
    (hu : UniqueRows a.rowPtr a.colInd) (hoff : WithoutLines a o) (hD : D ≤ 3) (hdim : D ≤ a.dim)
    (hgoal : a.goalCard = (2 ^ D : Nat)) (hg : IsGrid D ext n pos (Adj a.rowPtr a.colInd)) (he : ∀ ax < D, ext ax % 2 = 0)
    (hb : ∀ c < n, a.nBnd[c]? = some (sidesOut D ext (pos c)))
    (hgrow : ∀ E, CallEnv P { a with correction := false } E → E.g = graphOf a → ∀ (agg : List Bool) (s order : Nat) (S : NSet), agg.length = n →
      BlockSet D n pos (fun x => agg[x]? = some true) → agg[s]? = some false →
      Corner D pos (Adj E.g.rowPtr E.g.colInd) (fun x => agg[x]? = some true) s →
      GrownCell E (GrownGreedily E) agg s order S → ∀ x, x ∈ S ↔ x < n ∧ SameBlock D (pos x) (pos s)) :
    ∃ f : List Nat, agglomerateOneLevel P a o = (⟨f, o.linesIdx, o.lines⟩, .ok ()) ∧ f.length = n ∧ Contiguous f ∧
      ∀ i < n, ∀ j < n, (f[i]? = f[j]? ↔ SameBlock D (pos i) (pos j)) := by
  have G : EvenGrid D ext n pos (Adj a.rowPtr a.colInd) := ⟨hg, he⟩
  have hl : NoSelfLoop a.rowPtr a.colInd := fun i h => hg.noTriangle h h h
  have hm0 : ValidMesh { a with correction := false } n := { hm with }
  have hp0 : ValidParams P { a with correction := false } := { hp with }
  have hm1 : ValidMesh { a with correction := true } n := { hm with }
  have hp1 : ValidParams P { a with correction := true } := { hp with }
  obtain ⟨f, f0, h1, h2, h4⟩ := C56_isotropic (P := P) (o := o) hm1 hp1 rfl hoff hu hl
  have h2 : agglomerateOneLevel P { a with correction := false } o = (⟨f0, o.linesIdx, o.lines⟩, .ok ()) := h2
  have h3 : f0.length = n := by
    obtain ⟨f0', e, e'⟩ := C01_total (P := P) (o := o) hm0 hp0 (fun h => nomatch h) hoff
    rw [h2] at e
    cases e
    exact e'
  obtain ⟨E, p0, cs, agg, p, hE, hEg, hst, htr, hagg, hget⟩ : ∃ E p0 cs agg p, CallEnv P { a with correction := false } E ∧
      E.g = graphOf a ∧ PoolStarted E.pool p0 ∧ IsoTrace E (GrownGreedily E) (List.replicate n false) p0 cs agg p ∧
      agg = List.replicate n true ∧ ∀ i k : Nat,
        (agglomerateOneLevel P { a with correction := false } o).1.fcToCc[i]? = some k ↔ ∃ c, cs[k]? = some c ∧ i ∈ c.2 := by
    obtain ⟨c, p0, cs, agg, p, hc, h0, h⟩ := run_trace (o := o) hm0 hp0 hW hu hl rfl hoff
    have hE := isoInput hm0 hp0 hc
    exact ⟨isoEnvOf P { a with correction := false } c, p0, cs, agg, p, callEnv hp0 hc, rfl, poolStarted hW hE.pool hE.prio h0, h⟩
  rw [h2] at hget
  simp only at hget
  have hEdim : D ≤ E.g.dim := by have := hE.dim; simp only at this; omega
  have hn : 0 < n := hm.pos
  have hgp : GridPool D ext n pos (Adj E.g.rowPtr E.g.colInd) E.pool := by
    refine ⟨by rw [hE.rowPtr, hE.colInd]; exact G, ?_, ?_, hD⟩
    · intro x hx
      rw [hE.poolBnd, hE.nBnd, List.getElem?_map, hb x hx]
      have := Nat.le_trans (sidesOut_le (G.two_le hn) (pos x)) hEdim
      simp only [Option.map_some, Nat.min_eq_left this]
    · rw [hE.poolBnd, hE.nBnd, List.length_map]
      exact hm.bnd
  have hblocks := (trace_blocks hgp hEdim (hgrow E hE hEg) hst htr).2
  have hsome : ∀ i < n, ∃ k c, f0[i]? = some k ∧ cs[k]? = some c ∧ i ∈ c.2 ∧ c ∈ cs := by
    intro i hi
    have hi0 : i < f0.length := by omega
    obtain ⟨c, hc, hic⟩ := (hget i f0[i]).1 (List.getElem?_eq_getElem hi0)
    exact ⟨_, c, List.getElem?_eq_getElem hi0, hc, hic, List.mem_of_getElem? hc⟩
  have hf0 : ∀ i < n, ∀ j < n, (f0[i]? = f0[j]? ↔ SameBlock D (pos i) (pos j)) := by
    intro i hi j hj
    obtain ⟨k, c, e1, e2, e3, e4⟩ := hsome i hi
    obtain ⟨k', c', e1', e2', e3', e4'⟩ := hsome j hj
    have hi' := ((hblocks c e4).2 i).1 e3
    have hj' := ((hblocks c' e4').2 j).1 e3'
    constructor
    · intro h
      rw [e1, e1'] at h
      cases h
      rw [e2] at e2'
      cases e2'
      exact hi'.2.trans hj'.2.symm
    · intro h
      have : j ∈ c.2 := ((hblocks c e4).2 j).2 ⟨hj, h.symm.trans hi'.2⟩
      rw [e1, (hget j k).2 ⟨c, e2, this⟩]
  have hcon : Contiguous f0 := by
    have := C02_contiguous (P := P) (o := o) hm0 hp0 (fun h => nomatch h) hoff
    rwa [h2] at this
  cases hcor : a.correction with
  | false =>
    have : { a with correction := false } = a := by rw [← hcor]
    rw [this] at h2
    exact ⟨f0, h2, h3, hcon, hf0⟩
  | true =>
    have : { a with correction := true } = a := by rw [← hcor]
    rw [this] at h1
    obtain ⟨N, f1, D', hN, ht, hren⟩ := h4
    have hlarge : ∀ k < N, sizeLimit { a with correction := true } < f0.count k := by
      intro k hk
      obtain ⟨i, hi⟩ := List.mem_iff_getElem?.1 ((hN k).2 hk)
      obtain ⟨k', c, e1, hk, _, hc⟩ := hsome i (by rw [← h3]; exact (List.getElem?_eq_some_iff.1 hi).1)
      rw [hi] at e1
      cases e1
      rw [count_eq_card (s := c.2) (fun i => ⟨fun h => (hget i k).2 ⟨c, hk, h⟩, fun h => by
        obtain ⟨c2, h5, h6⟩ := (hget i k).1 h
        rw [hk] at h5; cases h5; exact h6⟩)]
      obtain ⟨L, hL1, hL2, hL3⟩ := G.block_list (hblocks c hc).1
      have hsub := List.Subperm.length_le (List.subperm_of_subset hL1 (l₂ := c.2.elems) (by
        intro x hx
        exact ((hblocks c hc).2 x).2 (hL3 x hx)))
      have hgc := hp.goalCard
      have hmin := hp.minCard
      have hcard : c.2.card = c.2.elems.length := rfl
      unfold sizeLimit
      simp only
      rw [hgoal] at hgc
      omega
    have hnone : smallsOf f0 0 (sizeLimit { a with correction := true }) N = [] := by
      unfold smallsOf
      rw [List.filter_eq_nil_iff]
      intro k hk
      have := hlarge k (List.mem_range.1 hk)
      simp
      omega
    rw [hnone] at ht
    cases ht
    have : f = f0 := by
      rw [hren]
      unfold renumberedBut
      simp
    rw [this] at h1
    exact ⟨f0, h1, h3, hcon, hf0⟩

/-- **C91** (2D) A mesh whose connectivity is that of a structured grid with an even number of cells
along both axes is coarsened into the blocks of two by two cells when `goal_card` and `max_card` are 4: whatever the
dimension, the numbering of the cells, weights, volumes, centers, priorities, order of the seeds, aspect ratio,
neighbourhood, number of iterations, `min_card`, correction and threshold.  The boundary faces given are those across the two
axes, also if the dimension is 3 (see `C91_thin_counterexample`). -/
theorem C91_blocks {P : Platform} {a : Args W} {o : Outs} (hm : ValidMesh a n) (hp : ValidParams P a) (hW : LawfulLt W)
    (hu : UniqueRows a.rowPtr a.colInd) (hoff : WithoutLines a o) (hgoal : a.goalCard = 4)
    (hmax : a.maxCard = 4) (hg : IsGrid 2 ext n pos (Adj a.rowPtr a.colInd)) (he : ∀ ax < 2, ext ax % 2 = 0)
    (hb : ∀ c < n, a.nBnd[c]? = some (sidesOut 2 ext (pos c))) :
    ∃ f : List Nat, agglomerateOneLevel P a o = (⟨f, o.linesIdx, o.lines⟩, .ok ()) ∧ f.length = n ∧ Contiguous f ∧
      ∀ i < n, ∀ j < n, (f[i]? = f[j]? ↔ SameBlock 2 (pos i) (pos j)) := by
  have hdim := hp.dim
  refine structured hm hp hW hu hoff (by omega) (by omega) hgoal hg he hb ?_
  intro E hE _ agg s order S hlen hbs hs hc hgr
  have h1 := hE.dim
  have h2 := hE.goalCard
  have h3 := hE.maxCard
  have h4 := hE.minCard
  have h5 := hp.goalCard
  simp only at h1 h2 h3 h4
  refine grown_square (ext := ext) ?_ (by omega) (by omega) (by omega) (by omega) hlen hbs hs hc hgr
  rw [hE.rowPtr, hE.colInd]
  exact ⟨hg, he⟩

/-- **C91** (1D) A row of an even number of cells is coarsened into pairs when `goal_card` and `max_card` are 2. -/
theorem C91_row {P : Platform} {a : Args W} {o : Outs} (hm : ValidMesh a n) (hp : ValidParams P a) (hW : LawfulLt W)
    (hu : UniqueRows a.rowPtr a.colInd) (hoff : WithoutLines a o) (hgoal : a.goalCard = 2)
    (hmax : a.maxCard = 2) (hg : IsGrid 1 ext n pos (Adj a.rowPtr a.colInd)) (he : ∀ ax < 1, ext ax % 2 = 0)
    (hb : ∀ c < n, a.nBnd[c]? = some (sidesOut 1 ext (pos c))) :
    ∃ f : List Nat, agglomerateOneLevel P a o = (⟨f, o.linesIdx, o.lines⟩, .ok ()) ∧ f.length = n ∧ Contiguous f ∧
      ∀ i < n, ∀ j < n, (f[i]? = f[j]? ↔ SameBlock 1 (pos i) (pos j)) := by
  have hdim := hp.dim
  refine structured hm hp hW hu hoff (by omega) (by omega) hgoal hg he hb ?_
  intro E hE _ agg s order S hlen hbs hs hc hgr
  have h2 := hE.goalCard
  have h3 := hE.maxCard
  have h4 := hE.minCard
  have h5 := hp.goalCard
  have h6 := hp.minCard
  simp only at h2 h3 h4
  refine grown_pair (ext := ext) ?_ (by omega) (by omega) (by omega) hlen hbs hs hc hgr
  rw [hE.rowPtr, hE.colInd]
  exact ⟨hg, he⟩

/-- **C92** (3D) The same with an even number of cells along the three axes: the blocks of two by
two by two cells, when `goal_card` and `max_card` are 8, with the extended neighbourhood and one
iteration (the default). -/
theorem C92_blocks {P : Platform} {a : Args W} {o : Outs} (hm : ValidMesh a n) (hp : ValidParams P a) (hW : LawfulLt W)
    (hu : UniqueRows a.rowPtr a.colInd) (hoff : WithoutLines a o) (hdim : a.dim = 3) (hgoal : a.goalCard = 8)
    (hmax : a.maxCard = 8) (hnb : a.nbh = .extended) (hfc : a.fcIter = 1)
    (hg : IsGrid 3 ext n pos (Adj a.rowPtr a.colInd)) (he : ∀ ax < 3, ext ax % 2 = 0)
    (hb : ∀ c < n, a.nBnd[c]? = some (sidesOut 3 ext (pos c))) :
    ∃ f : List Nat, agglomerateOneLevel P a o = (⟨f, o.linesIdx, o.lines⟩, .ok ()) ∧ f.length = n ∧ Contiguous f ∧
      ∀ i < n, ∀ j < n, (f[i]? = f[j]? ↔ SameBlock 3 (pos i) (pos j)) := by
  refine structured hm hp hW hu hoff (by omega) (by omega) hgoal hg he hb ?_
  intro E hE _ agg s order S hlen hbs hs hc hgr
  have h1 := hE.dim
  have h2 := hE.goalCard
  have h3 := hE.maxCard
  have h4 := hE.minCard
  have h5 := hp.goalCard
  have h6 := hE.fcIter
  simp only at h1 h2 h3 h4 h6
  refine grown_cube (ext := ext) ?_ (by omega) (by rw [hE.nbh]; exact hnb) (by omega) (by omega) (by omega) (by omega)
    hlen hbs hs hc hgr
  rw [hE.rowPtr, hE.colInd]
  exact ⟨hg, he⟩

/-- **C92** (3D) The same with two iterations, in exact arithmetic, if the aspect ratios of the sets of two to eight cells
are positive. -/
theorem C92_two_iterations {P : Platform} {a : Args W} {o : Outs} (hm : ValidMesh a n) (hp : ValidParams P a) (hW : LawfulLt W)
    (hu : UniqueRows a.rowPtr a.colInd) (hoff : WithoutLines a o) (hdim : a.dim = 3) (hgoal : a.goalCard = 8)
    (hmax : a.maxCard = 8) (hnb : a.nbh = .extended) (hfc : a.fcIter = 2) (hF : FeatInput (graphOf a) a.aspect)
    (hpos : ∀ (s : NSet) (r : W), 2 ≤ s.card → s.card ≤ 8 → (∀ x ∈ s, x < n) → RatioOf (graphOf a) a.aspect s r →
      Num.lt (Num.ofNat 0) r = true)
    (hg : IsGrid 3 ext n pos (Adj a.rowPtr a.colInd)) (he : ∀ ax < 3, ext ax % 2 = 0)
    (hb : ∀ c < n, a.nBnd[c]? = some (sidesOut 3 ext (pos c))) :
    ∃ f : List Nat, agglomerateOneLevel P a o = (⟨f, o.linesIdx, o.lines⟩, .ok ()) ∧ f.length = n ∧ Contiguous f ∧
      ∀ i < n, ∀ j < n, (f[i]? = f[j]? ↔ SameBlock 3 (pos i) (pos j)) := by
  refine structured hm hp hW hu hoff (by omega) (by omega) hgoal hg he hb ?_
  intro E hE hEg agg s order S hlen hbs hs hc hgr
  have h1 := hE.dim
  have h2 := hE.goalCard
  have h3 := hE.maxCard
  have h4 := hE.minCard
  have h5 := hp.goalCard
  have h6 := hE.fcIter
  have h7 := hp.minCard
  simp only at h1 h2 h3 h4 h6
  have hn : E.g.nbC = n := by rw [hEg]; exact graphOf_nbC hm
  rw [← hEg] at hF hpos
  have hsn : s < n := lt_of_agg hs hlen
  have hgr' : GrownCell E (ShapedSeq E a.aspect) agg s order S := by
    refine hgr.mono (by omega) ?_
    rintro d hi xs hh _ ⟨f, hx⟩
    exact (greedy_shaped hF hp.aspect hE.ar hx hh (by omega)).1
  have G : EvenGrid 3 ext n pos (Adj E.g.rowPtr E.g.colInd) := by
    rw [hE.rowPtr, hE.colInd]
    exact ⟨hg, he⟩
  refine grown_full G (by omega) (by omega) (by omega) (by omega) hlen hbs hs hc ?_ hgr'
  intro d cell xs hcu h0 hx hh hl
  have hadj : ∀ x y, Adj E.g.rowPtr E.g.colInd x y → y < n := fun x y h => by
    have := (hF.crs.adj_lt h).2
    omega
  have hlt : ∀ i < 8, cell i < n := by
    intro i hi
    have : ∀ i < 8, ∃ j < 8, adj3 j i = true := by decide
    obtain ⟨j, hj, hji⟩ := this i hi
    exact hadj _ _ (adj_iff_rowOf.2 ((hcu.adj j hj i hi).2 hji))
  obtain ⟨is, his, rfl⟩ := hcu.grown2 (by rw [hE.nbh]; exact hnb) (by omega) hlt hadj hpos 7 (Nat.le_refl _) hx hh hl
  exact ⟨is, runs2_last is his, rfl⟩

/-! ## Examples -/

theorem isGrid_of {rp ci : List Nat} (hv : ValidCRS n rp ci) (h1 : ∀ c < n, ∀ ax < D, pos c ax < ext ax)
    (h2 : ∀ c < n, ∀ c' < n, (∀ ax < D, pos c ax = pos c' ax) → c = c')
    (h3 : ∀ v : Nat → Nat, (∀ ax < D, v ax < ext ax) → ∃ c < n, ∀ ax < D, pos c ax = v ax)
    (h4 : ∀ c < n, ∀ c' < n, (c' ∈ rowOf rp ci c ↔ NextTo D (pos c) (pos c'))) : IsGrid D ext n pos (Adj rp ci) := by
  refine ⟨h1, h2, h3, fun c c' => ⟨fun h => ?_, fun h => ?_⟩⟩
  · have hc : c < n := by
      obtain ⟨b, e, k, _, he, _⟩ := h
      have := (List.getElem?_eq_some_iff.1 he).1
      have := hv.rows
      omega
    have hc' : c' < n := rowOf_lt hv (adj_iff_rowOf.1 h)
    exact ⟨hc, hc', (h4 c hc c' hc').1 (adj_iff_rowOf.1 h)⟩
  · exact adj_iff_rowOf.2 ((h4 c h.1 c' h.2.1).2 h.2.2)

/-- decides `NextTo` -/
def nextTo (D : Nat) (u v : Nat → Nat) : Bool :=
  (List.range D).any (fun ax => (decide (u ax + 1 = v ax) || decide (v ax + 1 = u ax)) &&
    (List.range D).all (fun b => decide (b = ax) || decide (u b = v b)))

theorem nextTo_iff {u v : Nat → Nat} : nextTo D u v = true ↔ NextTo D u v := by
  unfold nextTo NextTo
  simp only [List.any_eq_true, List.mem_range, Bool.and_eq_true, Bool.or_eq_true, decide_eq_true_eq, List.all_eq_true]
  constructor
  · rintro ⟨ax, h1, h2, h3⟩
    exact ⟨ax, h1, h2, fun b hb hne => (h3 b hb).resolve_left hne⟩
  · rintro ⟨ax, h1, h2, h3⟩
    exact ⟨ax, h1, h2, fun b hb => by by_cases h : b = ax <;> [exact Or.inl h; exact Or.inr (h3 b hb h)]⟩

/-- coordinates from a list -/
def posOf (l : List (List Nat)) (c ax : Nat) : Nat := ((l[c]?).getD []).getD ax 0

/-- four by two cells, numbered in some order -/
def exGridPos : List (List Nat) := [[2, 1], [0, 0], [3, 0], [1, 1], [0, 1], [3, 1], [1, 0], [2, 0]]

def exGrid : Args Int :=
  { exArgs with
    rowPtr := [0, 3, 5, 7, 10, 12, 14, 17, 20], colInd := [3, 5, 7, 4, 6, 5, 7, 0, 4, 6, 1, 3, 0, 2, 1, 3, 7, 0, 2, 6]
    values := [5, 1, 2, 9, 1, 3, 3, 7, 1, 2, 4, 4, 1, 8, 1, 1, 6, 2, 1, 3], volumes := [1, 2, 3, 1, 2, 3, 1, 2]
    centers := [[5, 0], [1, 1], [2, 7], [3, 3], [0, 9], [4, 4], [2, 2], [6, 1]], prio := [3, 1, 4, 1, 5, 9, 2, 6]
    nBnd := [1, 2, 2, 1, 2, 2, 1, 1], goalCard := 4, minCard := 3, maxCard := 4, singThresh := 2, fcIter := 2, nbh := .pureFront }

theorem exGrid_crs : ValidCRS 8 exGrid.rowPtr exGrid.colInd := checkCRS_sound (by decide)

theorem exGrid_valid : ValidMesh exGrid 8 where
  pos := by decide
  crs := exGrid_crs
  sym := checkSym_sound exGrid_crs (by decide)
  uniq := Or.inl (checkUniq_sound exGrid_crs (by decide))
  values := rfl
  volumes := rfl
  centers := rfl
  prio := rfl
  bnd := rfl
  coords := ⟨2, by decide⟩

theorem exGrid_params : ValidParams exPlatform exGrid :=
  ⟨by decide, by decide, by decide, by decide, by decide, by decide, by decide, by decide,
    fun h => by rcases h with h | h <;> cases h⟩

theorem exGrid_grid : IsGrid 2 (fun ax => if ax = 0 then 4 else 2) 8 (posOf exGridPos) (Adj exGrid.rowPtr exGrid.colInd) := by
  refine isGrid_of exGrid_crs (by decide) (by decide) ?_ ?_
  · intro v hv
    have key : ∀ x < 4, ∀ y < 2, ∃ c < 8, posOf exGridPos c 0 = x ∧ posOf exGridPos c 1 = y := by decide
    obtain ⟨c, hc, h0, h1⟩ := key (v 0) (hv 0 (by omega)) (v 1) (hv 1 (by omega))
    refine ⟨c, hc, fun ax hax => ?_⟩
    have : ax = 0 ∨ ax = 1 := by omega
    rcases this with rfl | rfl
    · exact h0
    · exact h1
  · have key : ∀ c < 8, ∀ c' < 8, (c' ∈ rowOf exGrid.rowPtr exGrid.colInd c ↔
        nextTo 2 (posOf exGridPos c) (posOf exGridPos c') = true) := by decide +kernel
    intro c hc c' hc'
    rw [key c hc c' hc', nextTo_iff]

example := C91_blocks (P := exPlatform) (o := ⟨[], [], []⟩) exGrid_valid exGrid_params exLawful
  (checkUniq_sound exGrid_crs (by decide)) (Or.inl rfl) rfl rfl exGrid_grid (by decide)
  (by unfold sidesOut; decide +kernel)

/-- four by two by two cells -/
def exGrid3Pos : List (List Nat) :=
  [[0, 0, 0], [1, 0, 0], [2, 0, 0], [3, 0, 0], [0, 1, 0], [1, 1, 0], [2, 1, 0], [3, 1, 0],
   [0, 0, 1], [1, 0, 1], [2, 0, 1], [3, 0, 1], [0, 1, 1], [1, 1, 1], [2, 1, 1], [3, 1, 1]]

def exGrid3 : Args Int :=
  { exArgs with
    rowPtr := [0, 3, 7, 11, 14, 17, 21, 25, 28, 31, 35, 39, 42, 45, 49, 53, 56]
    colInd := [1, 4, 8, 0, 2, 5, 9, 1, 3, 6, 10, 2, 7, 11, 0, 5, 12, 1, 4, 6, 13, 2, 5, 7, 14, 3, 6, 15, 0, 9, 12,
      1, 8, 10, 13, 2, 9, 11, 14, 3, 10, 15, 4, 8, 13, 5, 9, 12, 14, 6, 10, 13, 15, 7, 11, 14]
    values := List.replicate 56 1, volumes := List.replicate 16 1
    centers := [[0, 0, 0], [1, 0, 0], [2, 0, 0], [3, 0, 0], [0, 1, 0], [1, 1, 0], [2, 1, 0], [3, 1, 0],
      [0, 0, 1], [1, 0, 1], [2, 0, 1], [3, 0, 1], [0, 1, 1], [1, 1, 1], [2, 1, 1], [3, 1, 1]]
    prio := List.replicate 16 1, nBnd := [3, 2, 2, 3, 3, 2, 2, 3, 3, 2, 2, 3, 3, 2, 2, 3]
    dim := 3, goalCard := 8, minCard := 8, maxCard := 8, aspect := .external, fcIter := 1, nbh := .extended }

theorem exGrid3_crs : ValidCRS 16 exGrid3.rowPtr exGrid3.colInd := checkCRS_sound (by decide)

theorem exGrid3_valid : ValidMesh exGrid3 16 where
  pos := by decide
  crs := exGrid3_crs
  sym := checkSym_sound exGrid3_crs (by decide +kernel)
  uniq := Or.inl (checkUniq_sound exGrid3_crs (by decide +kernel))
  values := rfl
  volumes := rfl
  centers := rfl
  prio := rfl
  bnd := rfl
  coords := ⟨3, by decide⟩

theorem exGrid3_params : ValidParams exPlatform exGrid3 :=
  ⟨by decide, by decide, by decide, by decide, by decide, by decide, by decide, by decide,
    fun h => by rcases h with h | h <;> cases h⟩

theorem exGrid3_grid : IsGrid 3 (fun ax => if ax = 0 then 4 else 2) 16 (posOf exGrid3Pos) (Adj exGrid3.rowPtr exGrid3.colInd) := by
  refine isGrid_of exGrid3_crs (by decide +kernel) (by decide +kernel) ?_ ?_
  · intro v hv
    have key : ∀ x < 4, ∀ y < 2, ∀ z < 2, ∃ c < 16, posOf exGrid3Pos c 0 = x ∧ posOf exGrid3Pos c 1 = y ∧
        posOf exGrid3Pos c 2 = z := by decide +kernel
    obtain ⟨c, hc, h0, h1, h2⟩ := key (v 0) (hv 0 (by omega)) (v 1) (hv 1 (by omega)) (v 2) (hv 2 (by omega))
    refine ⟨c, hc, fun ax hax => ?_⟩
    have : ax = 0 ∨ ax = 1 ∨ ax = 2 := by omega
    rcases this with rfl | rfl | rfl
    · exact h0
    · exact h1
    · exact h2
  · have key : ∀ c < 16, ∀ c' < 16, (c' ∈ rowOf exGrid3.rowPtr exGrid3.colInd c ↔
        nextTo 3 (posOf exGrid3Pos c) (posOf exGrid3Pos c') = true) := by decide +kernel
    intro c hc c' hc'
    rw [key c hc c' hc', nextTo_iff]

theorem exGrid3_bnd : ∀ c < 16, exGrid3.nBnd[c]? = some (sidesOut 3 (fun ax => if ax = 0 then 4 else 2) (posOf exGrid3Pos c)) := by
  unfold sidesOut
  decide +kernel

example := C92_blocks (P := exPlatform) (o := ⟨[], [], []⟩) exGrid3_valid exGrid3_params exLawful
  (checkUniq_sound exGrid3_crs (by decide +kernel)) (Or.inl rfl) rfl rfl rfl rfl rfl exGrid3_grid (by decide) exGrid3_bnd

/-- the same mesh, two iterations, the diameter as aspect ratio -/
def exGrid3Two : Args Int := { exGrid3 with fcIter := 2, aspect := .diameter }

example := C92_two_iterations (P := exPlatform) (a := exGrid3Two) (o := ⟨[], [], []⟩) (n := 16)
  (ext := fun ax => if ax = 0 then 4 else 2) (pos := posOf exGrid3Pos) { exGrid3_valid with }
  { exGrid3_params with iter := by decide, aspect := by decide, onePoint := fun h => by rcases h with h | h <;> cases h } exLawful
  (checkUniq_sound exGrid3_crs (by decide +kernel)) (Or.inl rfl) rfl rfl rfl rfl rfl
  { crs := exGrid3_crs
    sizes := ⟨rfl, rfl, rfl, rfl, 3, by decide⟩
    sym := exGrid3_valid.sym
    add := exCommAdd
    weights := fun h => nomatch h
    geom := fun _ => ⟨exLawful, exSymm⟩
    bary := fun _ => ⟨exLawful, exSymm⟩
    facets := fun h => nomatch h }
  (by
    intro s r h2 _ hs hr
    have key : ∀ i < 16, ∀ j < 16, i ≠ j → 0 < dist2 (centerAt (graphOf exGrid3Two) i) (centerAt (graphOf exGrid3Two) j) := by
      decide +kernel
    have hlen : 1 < s.elems.length := h2
    have hnd : s.elems.Nodup := s.nodup
    have h0 : s.elems[0] ∈ s := NSet.mem_elems.1 (List.getElem_mem _)
    have h1 : s.elems[1] ∈ s := NSet.mem_elems.1 (List.getElem_mem _)
    have hne : s.elems[0] ≠ s.elems[1] := by
      intro e
      have := (List.Nodup.getElem_inj_iff hnd).1 e
      omega
    have h3 := hr.2.2 _ ⟨_, h0, _, h1, hne, rfl⟩
    have h4 := key _ (hs _ h0) _ (hs _ h1) hne
    have h3 : ¬ (r < dist2 (centerAt (graphOf exGrid3Two) s.elems[0]) (centerAt (graphOf exGrid3Two) s.elems[1])) :=
      of_decide_eq_false h3
    exact decide_eq_true (by omega : (0 : Int) < r))
  exGrid3_grid (by decide) exGrid3_bnd

/-- the cells `i` and `j` are not in the same block but in the same coarse cell -/
theorem not_blocks {f : List Nat} {i j : Nat} (hi : i < n) (hj : j < n) (h : f[i]? = f[j]?)
    (hne : ∃ ax < D, pos i ax / 2 ≠ pos j ax / 2) :
    ¬ ∀ i < n, ∀ j < n, (f[i]? = f[j]? ↔ SameBlock D (pos i) (pos j)) := by
  intro hall
  obtain ⟨ax, hax, hd⟩ := hne
  exact hd (((hall i hi j hj).1 h) ax hax)

/-- **C92** The neighbourhood is needed: with the pure front one, all the other hypotheses being met,
the coarse cells are not the blocks. -/
theorem C92_front_counterexample :
    ∃ f, agglomerateOneLevel exPlatform { exGrid3 with nbh := .pureFront } ⟨[], [], []⟩ = (⟨f, [], []⟩, .ok ()) ∧
      ¬ ∀ i < 16, ∀ j < 16, (f[i]? = f[j]? ↔ SameBlock 3 (posOf exGrid3Pos i) (posOf exGrid3Pos j)) :=
  ⟨[0, 0, 0, 0, 0, 0, 0, 1, 0, 1, 1, 1, 1, 1, 1, 1], by decide +kernel,
    not_blocks (i := 0) (j := 2) (by decide) (by decide) rfl ⟨0, by decide, by decide⟩⟩

/-- **C92** The number of iterations is needed: with four of them, all the other hypotheses being
met, the coarse cells are not the blocks. -/
theorem C92_iterations_counterexample :
    ∃ f, agglomerateOneLevel exPlatform { exGrid3 with fcIter := 4 } ⟨[], [], []⟩ = (⟨f, [], []⟩, .ok ()) ∧
      ¬ ∀ i < 16, ∀ j < 16, (f[i]? = f[j]? ↔ SameBlock 3 (posOf exGrid3Pos i) (posOf exGrid3Pos j)) :=
  ⟨[0, 0, 0, 1, 0, 0, 0, 1, 0, 0, 1, 1, 1, 1, 1, 1], by decide +kernel,
    not_blocks (i := 0) (j := 2) (by decide) (by decide) rfl ⟨0, by decide, by decide⟩⟩

/-- **C92** With two iterations positive aspect ratios are needed: when all the weights are zero, all the other
hypotheses being met, the coarse cells are not the blocks. -/
theorem C92_positive_counterexample :
    ∃ f, agglomerateOneLevel exPlatform { exGrid3 with fcIter := 2, values := exGrid3.values.map (fun _ => 0) } ⟨[], [], []⟩ =
        (⟨f, [], []⟩, .ok ()) ∧
      ¬ ∀ i < 16, ∀ j < 16, (f[i]? = f[j]? ↔ SameBlock 3 (posOf exGrid3Pos i) (posOf exGrid3Pos j)) :=
  ⟨[0, 0, 0, 1, 0, 0, 0, 1, 0, 0, 1, 1, 1, 1, 1, 1], by decide +kernel,
    not_blocks (i := 0) (j := 2) (by decide) (by decide) rfl ⟨0, by decide, by decide⟩⟩

/-- four cells in a row, numbered in some order, in dimension 3 -/
def exPairRow : Args Int :=
  { exArgs with
    rowPtr := [0, 2, 3, 5, 6], colInd := [1, 2, 0, 0, 3, 2], values := [5, 1, 5, 1, 7, 7], volumes := [1, 2, 3, 1]
    centers := [[5, 0, 0], [1, 1, 0], [2, 7, 1], [3, 3, 2]], prio := [3, 1, 4, 1], nBnd := [0, 1, 0, 1]
    dim := 3, goalCard := 2, minCard := 2, maxCard := 2, singThresh := 1, fcIter := 4, nbh := .pureFront }

def exPairRowPos : List (List Nat) := [[1], [0], [2], [3]]

theorem exPairRow_crs : ValidCRS 4 exPairRow.rowPtr exPairRow.colInd := checkCRS_sound (by decide)

example := C91_row (P := exPlatform) (a := exPairRow) (o := ⟨[], [], []⟩) (n := 4) (ext := fun _ => 4) (pos := posOf exPairRowPos)
  { pos := by decide, crs := exPairRow_crs, sym := checkSym_sound exPairRow_crs (by decide)
    uniq := Or.inl (checkUniq_sound exPairRow_crs (by decide)), values := rfl, volumes := rfl, centers := rfl, prio := rfl
    bnd := rfl, coords := ⟨3, by decide⟩ }
  ⟨by decide, by decide, by decide, by decide, by decide, by decide, by decide, by decide,
    fun h => by rcases h with h | h <;> cases h⟩
  exLawful (checkUniq_sound exPairRow_crs (by decide)) (Or.inl rfl) rfl rfl
  (isGrid_of exPairRow_crs (by decide) (by decide) (by
    intro v hv
    have key : ∀ x < 4, ∃ c < 4, posOf exPairRowPos c 0 = x := by decide
    obtain ⟨c, hc, h0⟩ := key (v 0) (hv 0 (by omega))
    refine ⟨c, hc, fun ax hax => ?_⟩
    have : ax = 0 := by omega
    subst this
    exact h0) (by
    have key : ∀ c < 4, ∀ c' < 4, (c' ∈ rowOf exPairRow.rowPtr exPairRow.colInd c ↔
        nextTo 1 (posOf exPairRowPos c) (posOf exPairRowPos c') = true) := by decide +kernel
    intro c hc c' hc'
    rw [key c hc c' hc', nextTo_iff]))
  (by decide) (by unfold sidesOut; decide +kernel)

/-- A mesh of four by two cells, one cell thick, in dimension 3: boundary faces are given for all the sides of the cells, so
also for the two sides across the third axis, and only the first three of a cell count. -/
def exSlab : Args Int :=
  { exGrid with dim := 3, nBnd := [3, 4, 4, 3, 4, 4, 3, 3], values := List.replicate 20 1, volumes := List.replicate 8 1
                centers := exGridPos.map (fun p => p.map (fun (x : Nat) => (x : Int)) ++ [0]), prio := List.replicate 8 1
                nbh := .extended, fcIter := 1, correction := false, aspect := .external }

theorem exSlab_valid : ValidMesh exSlab 8 :=
  { exGrid_valid with values := rfl, volumes := rfl, centers := rfl, prio := rfl, bnd := rfl, coords := ⟨3, by decide⟩ }

theorem exSlab_params : ValidParams exPlatform exSlab :=
  ⟨by decide, by decide, by decide, by decide, by decide, by decide, by decide, by decide,
    fun h => by rcases h with h | h <;> cases h⟩

/-- The boundary faces across the third axis must not be counted on a mesh that is one cell thick: if they are, the corners of the
mesh cannot be told from the other cells of the border, and the coarse cells are not the blocks. -/
theorem C91_thin_counterexample :
    ValidMesh exSlab 8 ∧ ValidParams exPlatform exSlab ∧
    IsGrid 2 (fun ax => if ax = 0 then 4 else 2) 8 (posOf exGridPos) (Adj exSlab.rowPtr exSlab.colInd) ∧
    (∀ c < 8, exSlab.nBnd[c]? = some (sidesOut 2 (fun ax => if ax = 0 then 4 else 2) (posOf exGridPos c) + 2)) ∧
    ∃ f, agglomerateOneLevel exPlatform exSlab ⟨[], [], []⟩ = (⟨f, [], []⟩, .ok ()) ∧
      ¬ ∀ i < 8, ∀ j < 8, (f[i]? = f[j]? ↔ SameBlock 2 (posOf exGridPos i) (posOf exGridPos j)) :=
  ⟨exSlab_valid, exSlab_params, exGrid_grid, by unfold sidesOut; decide +kernel,
    [0, 1, 2, 0, 1, 0, 1, 2], by decide +kernel, not_blocks (i := 0) (j := 3) (by decide) (by decide) rfl ⟨0, by decide, by decide⟩⟩

/-- without them they are the blocks -/
example := C91_blocks (P := exPlatform) (a := { exSlab with nBnd := exGrid.nBnd }) (o := ⟨[], [], []⟩)
  { exSlab_valid with bnd := rfl } { exSlab_params with onePoint := fun h => by rcases h with h | h <;> cases h } exLawful
  (checkUniq_sound exGrid_crs (by decide)) (Or.inl rfl) rfl rfl exGrid_grid (by decide)
  (by unfold sidesOut; decide +kernel)

end CoMMA
