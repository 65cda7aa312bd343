import Verif.Lemmas.TileSize
import Verif.Props.StructuredLarger
/-! # C102: structured meshes in the plane are coarsened into square blocks of any width -/

namespace CoMMA

variable {W : Type} [Num W]
variable {B : Nat} {ext : Nat → Nat} {n : Nat} {pos : Nat → Nat → Nat}

open Tile

/-- a block has the square of its width as number of cells -/
theorem tile_card {R : Nat → Nat → Prop} (G : TileGrid B 2 ext n pos R) {s : Nat} (hs : s < n) {S : NSet}
    (hS : ∀ x, x ∈ S ↔ x < n ∧ SameTile B 2 (pos x) (pos s)) : B * B ≤ S.card := by
  classical
  have hB0 : 0 < B := by have := G.two; omega
  have hdiv : ∀ ax, ∀ i < B, (B * (pos s ax / B) + i) / B = pos s ax / B := by
    intro ax i hi
    rw [Nat.add_comm, Nat.add_mul_div_left _ _ hB0, Nat.div_eq_of_lt hi, Nat.zero_add]
  have hget : ∀ ij : Nat × Nat, ij.1 < B ∧ ij.2 < B → ∃ c, c < n ∧ pos c 0 = B * (pos s 0 / B) + ij.1 ∧
      pos c 1 = B * (pos s 1 / B) + ij.2 := by
    intro ij hij
    obtain ⟨c, hc, h⟩ := G.grid.surj (fun ax => B * (pos s ax / B) + if ax = 0 then ij.1 else ij.2) (by
      intro ax hax
      exact tile_lt hB0 (hdiv ax _ (by split <;> omega)) (G.grid.range s hs ax hax) (G.mult ax hax))
    exact ⟨c, hc, by simpa using h 0 (by omega), by simpa using h 1 (by omega)⟩
  choose! cell hcell using hget
  have := Finset.card_le_card_of_injOn (s := Finset.range B ×ˢ Finset.range B) (t := S.elems.toFinset) cell (by
    intro ij hij
    simp only [Finset.coe_product, Finset.coe_range, Set.mem_prod, Set.mem_Iio] at hij
    obtain ⟨h1, h2, h3⟩ := hcell ij hij
    rw [Finset.mem_coe, List.mem_toFinset]
    refine (hS _).2 ⟨h1, same_two.2 ⟨?_, ?_⟩⟩
    · rw [h2]; exact hdiv 0 _ hij.1
    · rw [h3]; exact hdiv 1 _ hij.2) (by
    intro ij hij kl hkl he
    simp only [Finset.coe_product, Finset.coe_range, Set.mem_prod, Set.mem_Iio] at hij hkl
    have h1 := (hcell ij hij).2
    have h2 := (hcell kl hkl).2
    rw [he] at h1
    exact Prod.ext (by omega) (by omega))
  rw [Finset.card_product, Finset.card_range] at this
  exact Nat.le_trans this (List.toFinset_card_le _)

/-- If the coarse cell grown from a corner of a block none of whose cells is taken is the block, the mesh is coarsened into the
blocks. -/
theorem tiles_of_growth {D : Nat} {P : Platform} {a : Args W} {o : Outs} (hm : ValidMesh a n) (hp : ValidParams P a) (hW : LawfulLt W)
    (hu : UniqueRows a.rowPtr a.colInd) (hoff : WithoutLines a o) (hD : (D : Int) ≤ a.dim) (hD3 : D ≤ 3)
    (G : TileGrid B D ext n pos (Adj a.rowPtr a.colInd))
    (hb : ∀ c < n, a.nBnd[c]? = some (sidesOut D ext (pos c)))
    (hcard : ∀ s < n, ∀ S : NSet, (∀ x, x ∈ S ↔ x < n ∧ SameTile B D (pos x) (pos s)) →
      sizeLimit { a with correction := true } < S.card)
    (hgrow : ∀ E, CallEnv P { a with correction := false } E → (∀ c < n, E.g.nBnd[c]? = some (sidesOut D ext (pos c))) →
      (D = 1 ∨ D * (B - 1) ≤ max (if E.g.dim = 2 then 2 else 3) (E.maxCard / E.g.dim)) ∧
      ∀ (agg : List Bool) (s order : Nat) (S : NSet), agg.length = n →
        TileSet B D n pos (fun x => agg[x]? = some true) → agg[s]? = some false →
        TileCorner B D pos (Adj E.g.rowPtr E.g.colInd) (fun x => agg[x]? = some true) s →
        GrownCell E (GrownGreedily E) agg s order S → ∀ x, x ∈ S ↔ x < n ∧ SameTile B D (pos x) (pos s)) :
    ∃ f : List Nat, agglomerateOneLevel P a o = (⟨f, o.linesIdx, o.lines⟩, .ok ()) ∧ f.length = n ∧ Contiguous f ∧
      ∀ i < n, ∀ j < n, (f[i]? = f[j]? ↔ SameTile B D (pos i) (pos j)) := by
  have hl : NoSelfLoop a.rowPtr a.colInd := fun i h => G.grid.noTriangle h h h
  have hm0 : ValidMesh { a with correction := false } n := { hm with }
  have hp0 : ValidParams P { a with correction := false } := { hp with }
  have hm1 : ValidMesh { a with correction := true } n := { hm with }
  have hp1 : ValidParams P { a with correction := true } := { hp with }
  obtain ⟨f, f0, h1, h2, h4⟩ := C56_isotropic (P := P) (o := o) hm1 hp1 rfl hoff hu hl
  have h2 : agglomerateOneLevel P { a with correction := false } o = (⟨f0, o.linesIdx, o.lines⟩, .ok ()) := h2
  have h3 : f0.length = n := by
    obtain ⟨f0', e, e'⟩ := C01_total (P := P) (o := o) hm0 hp0 (fun h => nomatch h) hoff
    rw [h2] at e
    cases e
    exact e'
  obtain ⟨E, p0, cs, agg, p, hE, hEg, hst, htr, hagg, hget⟩ : ∃ E p0 cs agg p, CallEnv P { a with correction := false } E ∧
      E.g = graphOf a ∧ PoolStarted E.pool p0 ∧ IsoTrace E (GrownGreedily E) (List.replicate n false) p0 cs agg p ∧
      agg = List.replicate n true ∧ ∀ i k : Nat,
        (agglomerateOneLevel P { a with correction := false } o).1.fcToCc[i]? = some k ↔ ∃ c, cs[k]? = some c ∧ i ∈ c.2 := by
    obtain ⟨c, p0, cs, agg, p, hc, h0, h⟩ := run_trace (o := o) hm0 hp0 hW hu hl rfl hoff
    have hE := isoInput hm0 hp0 hc
    exact ⟨isoEnvOf P { a with correction := false } c, p0, cs, agg, p, callEnv hp0 hc, rfl, poolStarted hW hE.pool hE.prio h0, h⟩
  rw [h2] at hget
  simp only at hget
  have i1 := hE.dim
  simp only at i1
  have hn : 0 < n := hm.pos
  have hbnd : ∀ c < n, E.g.nBnd[c]? = some (sidesOut D ext (pos c)) := by
    intro c hc
    have := sidesOut_le (G.two_le hn) (pos c)
    rw [hE.nBnd, List.getElem?_map, hb c hc]
    simp only [Option.map_some]
    rw [Nat.min_eq_left (by omega)]
  have hG : TileGrid B D ext n pos (Adj E.g.rowPtr E.g.colInd) := by rw [hE.rowPtr, hE.colInd]; exact G
  have hgp : TilePool B D ext n pos (Adj E.g.rowPtr E.g.colInd) E.pool := by
    refine ⟨hG, ?_, ?_, hD3⟩
    · intro x hx
      rw [hE.poolBnd]
      exact hbnd x hx
    · rw [hE.poolBnd, hE.nBnd, List.length_map]
      exact hm.bnd
  obtain ⟨hord, hgr⟩ := hgrow E hE hbnd
  have hblocks := (Tile.trace_blocks hgp hord hgr hst htr).2
  have hsome : ∀ i < n, ∃ k c, f0[i]? = some k ∧ cs[k]? = some c ∧ i ∈ c.2 ∧ c ∈ cs := by
    intro i hi
    have hi0 : i < f0.length := by omega
    obtain ⟨c, hc, hic⟩ := (hget i f0[i]).1 (List.getElem?_eq_getElem hi0)
    exact ⟨_, c, List.getElem?_eq_getElem hi0, hc, hic, List.mem_of_getElem? hc⟩
  have hf0 : ∀ i < n, ∀ j < n, (f0[i]? = f0[j]? ↔ SameTile B D (pos i) (pos j)) := by
    intro i hi j hj
    obtain ⟨k, c, e1, e2, e3, e4⟩ := hsome i hi
    obtain ⟨k', c', e1', e2', e3', e4'⟩ := hsome j hj
    have hi' := ((hblocks c e4).2 i).1 e3
    have hj' := ((hblocks c' e4').2 j).1 e3'
    constructor
    · intro h
      rw [e1, e1'] at h
      cases h
      rw [e2] at e2'
      cases e2'
      exact hi'.2.trans hj'.2.symm
    · intro h
      have : j ∈ c.2 := ((hblocks c e4).2 j).2 ⟨hj, h.symm.trans hi'.2⟩
      rw [e1, (hget j k).2 ⟨c, e2, this⟩]
  have hcon : Contiguous f0 := by
    have := C02_contiguous (P := P) (o := o) hm0 hp0 (fun h => nomatch h) hoff
    rwa [h2] at this
  cases hcor : a.correction with
  | false =>
    have : { a with correction := false } = a := by rw [← hcor]
    rw [this] at h2
    exact ⟨f0, h2, h3, hcon, hf0⟩
  | true =>
    have : { a with correction := true } = a := by rw [← hcor]
    rw [this] at h1
    obtain ⟨N, f1, D', hN, ht, hren⟩ := h4
    have hlarge : ∀ k < N, sizeLimit { a with correction := true } < f0.count k := by
      intro k hk
      obtain ⟨i, hi⟩ := List.mem_iff_getElem?.1 ((hN k).2 hk)
      obtain ⟨k', c, e1, hk, _, hc⟩ := hsome i (by rw [← h3]; exact (List.getElem?_eq_some_iff.1 hi).1)
      rw [hi] at e1
      cases e1
      rw [count_eq_card (s := c.2) (fun i => ⟨fun h => (hget i k).2 ⟨c, hk, h⟩, fun h => by
        obtain ⟨c2, h5, h6⟩ := (hget i k).1 h
        rw [hk] at h5; cases h5; exact h6⟩)]
      exact hcard _ (hblocks c hc).1 _ (hblocks c hc).2
    have hnone : smallsOf f0 0 (sizeLimit { a with correction := true }) N = [] := by
      unfold smallsOf
      rw [List.filter_eq_nil_iff]
      intro k hk
      have := hlarge k (List.mem_range.1 hk)
      simp
      omega
    rw [hnone] at ht
    cases ht
    have : f = f0 := by
      rw [hren]
      unfold renumberedBut
      simp
    rw [this] at h1
    exact ⟨f0, h1, h3, hcon, hf0⟩

/-- **C102** A mesh whose connectivity is that of a structured grid in the plane, with a multiple of `B` cells along both axes, is
coarsened into the blocks of `B` by `B` cells, for any `B` from 3 on, when `max_card` is `B * B` or one more, or two more if
`goal_card` is `B * B`: with the extended neighbourhood and one iteration (the defaults), whatever the numbering of the cells,
weights, volumes, centers, priorities, order of the seeds, aspect ratio, `goal_card`, `min_card`, correction and threshold. -/
theorem C102_tiles {P : Platform} {a : Args W} {o : Outs} (hm : ValidMesh a n) (hp : ValidParams P a) (hW : LawfulLt W)
    (hu : UniqueRows a.rowPtr a.colInd) (hoff : WithoutLines a o) (hdim : a.dim = 2) (hB : 3 ≤ B)
    (hgoal : a.goalCard ≤ (B * B : Nat)) (hmax : ((B * B : Nat) : Int) ≤ a.maxCard)
    (hlarge : a.maxCard ≤ (B * B : Nat) + 1 ∨ (a.maxCard ≤ (B * B : Nat) + 2 ∧ a.goalCard = (B * B : Nat)))
    (hnb : a.nbh = .extended) (hfc : a.fcIter = 1)
    (hg : IsGrid 2 ext n pos (Adj a.rowPtr a.colInd)) (he : ∀ ax < 2, ext ax % B = 0)
    (hb : ∀ c < n, a.nBnd[c]? = some (sidesOut 2 ext (pos c))) :
    ∃ f : List Nat, agglomerateOneLevel P a o = (⟨f, o.linesIdx, o.lines⟩, .ok ()) ∧ f.length = n ∧ Contiguous f ∧
      ∀ i < n, ∀ j < n, (f[i]? = f[j]? ↔ SameTile B 2 (pos i) (pos j)) := by
  have G : TileGrid B 2 ext n pos (Adj a.rowPtr a.colInd) := ⟨hg, he, by omega⟩
  have i5 := hp.goalCard
  have i7 := hp.minCard
  refine tiles_of_growth hm hp hW hu hoff (by omega) (by omega) G hb ?_ ?_
  · intro s hs S hS
    have := tile_card G hs hS
    unfold sizeLimit
    simp only
    omega
  · intro E hE hbnd
    have i1 := hE.dim
    have i2 := hE.goalCard
    have i3 := hE.maxCard
    have i4 := hE.minCard
    have i6 := hE.fcIter
    simp only at i1 i2 i3 i4 i6
    have hEdim : E.g.dim = 2 := by omega
    have hG : TileGrid B 2 ext n pos (Adj E.g.rowPtr E.g.colInd) := by rw [hE.rowPtr, hE.colInd]; exact G
    constructor
    · right
      rw [hEdim]
      have : 4 * (B - 1) ≤ B * B := by
        obtain ⟨k, rfl⟩ : ∃ k, B = k + 3 := ⟨B - 3, by omega⟩
        have : (k + 3) * (k + 3) = k * k + 6 * k + 9 := by ring
        omega
      omega
    · intro agg s order S hlen hbs hs hc hgr
      exact grown_tile (by rw [hE.rowPtr, hE.colInd]; exact hm.crs) (by rw [hE.rowPtr, hE.colInd]; exact hu) hG hbnd hEdim hB
        (by rw [hE.nbh]; exact hnb) (by omega) (by omega) (by omega) (by omega) (by omega) hlen hbs hs hc hgr

/-- six by three cells, numbered in some order -/
def exTilesPos : List (List Nat) :=
      [[3, 1], [1, 0], [4, 2], [5, 2], [2, 1], [2, 0], [2, 2], [3, 2], [1, 1], [3, 0], [0, 1], [4, 1], [4, 0],
      [1, 2], [5, 1], [0, 0], [0, 2], [5, 0]]

def exTiles : Args Int :=
  { exArgs with
    rowPtr := [0, 4, 7, 10, 12, 16, 19, 22, 25, 29, 32, 35, 39, 42, 45, 48, 50, 52, 54]
    colInd := [4, 7, 9, 11, 5, 8, 15, 3, 7, 11, 2, 14, 0, 5, 6, 8, 1, 4, 9, 4, 7, 13, 0, 2, 6, 1, 4, 10, 13, 0, 5, 12,
      8, 15, 16, 0, 2, 12, 14, 9, 11, 17, 6, 8, 16, 3, 11, 17, 1, 10, 10, 13, 12, 14]
    values := [7, 3, 5, 6, 2, 1, 1, 9, 7, 8, 9, 4, 7, 3, 7, 4, 6, 5, 2, 2, 9, 6, 8, 8, 4, 4, 2, 2, 6, 8, 1, 3, 7, 2, 8,
      4, 2, 2, 4, 8, 1, 6, 1, 8, 3, 8, 8, 4, 1, 5, 6, 5, 6, 2]
    volumes := List.replicate 18 1, centers := (List.range 18).map (fun i => [(i % 5 : Nat), (i / 5 : Nat)])
    prio := [4, 8, 2, 3, 8, 3, 1, 8, 6, 2, 8, 6, 6, 5, 4, 6, 6, 8]
    nBnd := [0, 1, 1, 2, 0, 1, 1, 1, 0, 1, 1, 0, 1, 1, 1, 2, 2, 2]
    goalCard := 9, minCard := 5, maxCard := 9, aspect := .external, fcIter := 1, nbh := .extended }

theorem exTiles_crs : ValidCRS 18 exTiles.rowPtr exTiles.colInd := checkCRS_sound (by decide +kernel)

theorem exTiles_valid : ValidMesh exTiles 18 where
  pos := by decide
  crs := exTiles_crs
  sym := checkSym_sound exTiles_crs (by decide +kernel)
  uniq := Or.inl (checkUniq_sound exTiles_crs (by decide +kernel))
  values := rfl
  volumes := rfl
  centers := rfl
  prio := rfl
  bnd := rfl
  coords := ⟨2, by decide⟩

theorem exTiles_params : ValidParams exPlatform exTiles :=
  ⟨by decide, by decide, by decide, by decide, by decide, by decide, by decide, by decide,
    fun h => by rcases h with h | h <;> cases h⟩

theorem exTiles_grid :
    IsGrid 2 (fun ax => if ax = 0 then 6 else 3) 18 (posOf exTilesPos) (Adj exTiles.rowPtr exTiles.colInd) := by
  refine isGrid_of exTiles_crs (by decide +kernel) (by decide +kernel) ?_ ?_
  · intro v hv
    have key : ∀ x < 6, ∀ y < 3, ∃ c < 18, posOf exTilesPos c 0 = x ∧ posOf exTilesPos c 1 = y := by decide +kernel
    obtain ⟨c, hc, h0, h1⟩ := key (v 0) (hv 0 (by omega)) (v 1) (hv 1 (by omega))
    refine ⟨c, hc, fun ax hax => ?_⟩
    have : ax = 0 ∨ ax = 1 := by omega
    rcases this with rfl | rfl
    · exact h0
    · exact h1
  · have key : ∀ c < 18, ∀ c' < 18, (c' ∈ rowOf exTiles.rowPtr exTiles.colInd c ↔
        nextTo 2 (posOf exTilesPos c) (posOf exTilesPos c') = true) := by decide +kernel
    intro c hc c' hc'
    rw [key c hc c' hc', nextTo_iff]

theorem exTiles_bnd :
    ∀ c < 18, exTiles.nBnd[c]? = some (sidesOut 2 (fun ax => if ax = 0 then 6 else 3) (posOf exTilesPos c)) := by
  unfold sidesOut
  decide +kernel

example := C102_tiles (P := exPlatform) (o := ⟨[], [], []⟩) exTiles_valid exTiles_params exLawful
  (checkUniq_sound exTiles_crs (by decide +kernel)) (Or.inl rfl) rfl (B := 3) (by decide) (by decide) (by decide) (by decide) rfl rfl
  exTiles_grid (by decide) exTiles_bnd

/-- the same with eleven cells allowed -/
example := C102_tiles (P := exPlatform) (a := { exTiles with maxCard := 11 }) (o := ⟨[], [], []⟩) { exTiles_valid with }
  { exTiles_params with maxCard := by decide } exLawful
  (checkUniq_sound exTiles_crs (by decide +kernel)) (Or.inl rfl) rfl (B := 3) (by decide) (by decide) (by decide) (by decide) rfl rfl
  exTiles_grid (by decide) exTiles_bnd

theorem not_tiles {f : List Nat} {D i j : Nat} (hi : i < n) (hj : j < n)
    (h : (f[i]? = f[j]? ∧ ∃ ax < D, pos i ax / B ≠ pos j ax / B) ∨ (f[i]? ≠ f[j]? ∧ ∀ ax < D, pos i ax / B = pos j ax / B)) :
    ¬ ∀ i < n, ∀ j < n, (f[i]? = f[j]? ↔ SameTile B D (pos i) (pos j)) := by
  intro hall
  rcases h with ⟨h, ax, hax, hd⟩ | ⟨h, hd⟩
  · exact hd (((hall i hi j hj).1 h) ax hax)
  · exact h ((hall i hi j hj).2 hd)

/-- **C102** The bound on `max_card` is needed: when twelve cells are allowed, all the other hypotheses being met, a coarse cell of
four by three cells is made. -/
theorem C102_twelve_counterexample :
    ValidMesh { exTiles with maxCard := 12 } 18 ∧ ValidParams exPlatform { exTiles with maxCard := 12 } ∧ exTiles.goalCard = 9 ∧
    IsGrid 2 (fun ax => if ax = 0 then 6 else 3) 18 (posOf exTilesPos) (Adj exTiles.rowPtr exTiles.colInd) ∧
    (∀ c < 18, exTiles.nBnd[c]? = some (sidesOut 2 (fun ax => if ax = 0 then 6 else 3) (posOf exTilesPos c))) ∧
    ∃ f, agglomerateOneLevel exPlatform { exTiles with maxCard := 12 } ⟨[], [], []⟩ = (⟨f, [], []⟩, .ok ()) ∧
      ¬ ∀ i < 18, ∀ j < 18, (f[i]? = f[j]? ↔ SameTile 3 2 (posOf exTilesPos i) (posOf exTilesPos j)) :=
  ⟨{ exTiles_valid with }, ⟨by decide, by decide, by decide, by decide, by decide, by decide, by decide, by decide,
    fun h => by rcases h with h | h <;> cases h⟩, rfl, exTiles_grid, exTiles_bnd,
    [0, 1, 0, 0, 0, 0, 0, 0, 1, 0, 1, 0, 0, 1, 0, 1, 1, 0], by decide +kernel,
    not_tiles (i := 0) (j := 4) (by decide) (by decide) (Or.inl ⟨rfl, 0, by decide, by decide⟩)⟩

/-- **C102** When eleven cells are allowed, `goal_card` has to be nine: with eight, all the other hypotheses being met, the coarse
cells are not the blocks. -/
theorem C102_goal_counterexample :
    ValidMesh { exTiles with goalCard := 8, maxCard := 11 } 18 ∧ ValidParams exPlatform { exTiles with goalCard := 8, maxCard := 11 } ∧ exTiles.nbh = .extended ∧
    IsGrid 2 (fun ax => if ax = 0 then 6 else 3) 18 (posOf exTilesPos) (Adj exTiles.rowPtr exTiles.colInd) ∧
    (∀ c < 18, exTiles.nBnd[c]? = some (sidesOut 2 (fun ax => if ax = 0 then 6 else 3) (posOf exTilesPos c))) ∧
    ∃ f, agglomerateOneLevel exPlatform { exTiles with goalCard := 8, maxCard := 11 } ⟨[], [], []⟩ = (⟨f, [], []⟩, .ok ()) ∧
      ¬ ∀ i < 18, ∀ j < 18, (f[i]? = f[j]? ↔ SameTile 3 2 (posOf exTilesPos i) (posOf exTilesPos j)) :=
  ⟨{ exTiles_valid with }, ⟨by decide, by decide, by decide, by decide, by decide, by decide, by decide, by decide,
    fun h => by rcases h with h | h <;> cases h⟩, rfl, exTiles_grid, exTiles_bnd,
    [0, 1, 0, 0, 0, 0, 1, 0, 1, 0, 1, 0, 0, 1, 0, 1, 1, 0], by decide +kernel,
    not_tiles (i := 0) (j := 4) (by decide) (by decide) (Or.inl ⟨rfl, 0, by decide, by decide⟩)⟩

/-- **C102** The neighbourhood is needed: with the pure front one, all the other hypotheses being met, the coarse cells are not the
blocks. -/
theorem C102_front_counterexample :
    ValidMesh { exTiles with nbh := .pureFront } 18 ∧ ValidParams exPlatform { exTiles with nbh := .pureFront } ∧ exTiles.goalCard = 9 ∧ exTiles.maxCard = 9 ∧
    IsGrid 2 (fun ax => if ax = 0 then 6 else 3) 18 (posOf exTilesPos) (Adj exTiles.rowPtr exTiles.colInd) ∧
    (∀ c < 18, exTiles.nBnd[c]? = some (sidesOut 2 (fun ax => if ax = 0 then 6 else 3) (posOf exTilesPos c))) ∧
    ∃ f, agglomerateOneLevel exPlatform { exTiles with nbh := .pureFront } ⟨[], [], []⟩ = (⟨f, [], []⟩, .ok ()) ∧
      ¬ ∀ i < 18, ∀ j < 18, (f[i]? = f[j]? ↔ SameTile 3 2 (posOf exTilesPos i) (posOf exTilesPos j)) :=
  ⟨{ exTiles_valid with }, ⟨by decide, by decide, by decide, by decide, by decide, by decide, by decide, by decide,
    fun h => by rcases h with h | h <;> cases h⟩, rfl, rfl, exTiles_grid, exTiles_bnd,
    [0, 1, 2, 2, 0, 0, 2, 2, 1, 0, 1, 0, 0, 1, 0, 1, 1, 0], by decide +kernel,
    not_tiles (i := 0) (j := 4) (by decide) (by decide) (Or.inl ⟨rfl, 0, by decide, by decide⟩)⟩

end CoMMA
