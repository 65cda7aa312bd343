import Verif.Lemmas.RowRun
import Verif.Props.TileRows
/-! # C106: rows of cells of any length -/

namespace CoMMA

variable {W : Type} [Num W]
variable {ext : Nat → Nat} {n : Nat} {pos : Nat → Nat → Nat}

/-- a row has as many cells as places -/
theorem row_length {R : Nat → Nat → Prop} (G : IsGrid 1 ext n pos R) : ext 0 = n := by
  apply Nat.le_antisymm
  · have hget : ∀ i, i < ext 0 → ∃ c, c < n ∧ pos c 0 = i := fun i hi => Row.get G hi
    choose! cell hcell using hget
    have := Finset.card_le_card_of_injOn (s := Finset.range (ext 0)) (t := Finset.range n) cell (by
      intro i hi
      simp only [Finset.coe_range, Set.mem_Iio] at hi ⊢
      exact (hcell i hi).1) (by
      intro i hi j hj he
      simp only [Finset.coe_range, Set.mem_Iio] at hi hj
      have h1 := (hcell i hi).2
      have h2 := (hcell j hj).2
      rw [he] at h1
      omega)
    rwa [Finset.card_range, Finset.card_range] at this
  · have := Finset.card_le_card_of_injOn (s := Finset.range n) (t := Finset.range (ext 0)) (fun x => pos x 0) (by
      intro x hx
      simp only [Finset.coe_range, Set.mem_Iio] at hx ⊢
      exact G.range x hx 0 (by omega)) (by
      intro x hx y hy he
      simp only [Finset.coe_range, Set.mem_Iio] at hx hy
      exact Row.inj G hx hy he)
    rwa [Finset.card_range, Finset.card_range] at this

/-- a part of a row has as many cells as places -/
theorem part_card {R : Nat → Nat → Prop} (G : IsGrid 1 ext n pos R) {a b : Nat} {c : Nat × NSet} (h : Row.IsPart n pos a b c)
    (hb : b ≤ ext 0) : b - a ≤ c.2.card := by
  have hget : ∀ i, i < b - a → ∃ c, c < n ∧ pos c 0 = a + i := fun i hi => Row.get G (by omega)
  choose! cell hcell using hget
  have := Finset.card_le_card_of_injOn (s := Finset.range (b - a)) (t := c.2.elems.toFinset) cell (by
    intro i hi
    simp only [Finset.coe_range, Set.mem_Iio] at hi
    rw [Finset.mem_coe, List.mem_toFinset]
    have := hcell i hi
    exact (h.2.2 _).2 ⟨this.1, by omega, by omega⟩) (by
    intro i hi j hj he
    simp only [Finset.coe_range, Set.mem_Iio] at hi hj
    have h1 := (hcell i hi).2
    have h2 := (hcell j hj).2
    rw [he] at h1
    omega)
  rw [Finset.card_range] at this
  exact Nat.le_trans this (List.toFinset_card_le _)

/-- if all the coarse cells made without correction are larger than the limit, correction changes nothing -/
theorem corrects_nothing {P : Platform} {a : Args W} {o : Outs} (hm : ValidMesh a n) (hp : ValidParams P a)
    (hu : UniqueRows a.rowPtr a.colInd) (hl : NoSelfLoop a.rowPtr a.colInd) (hoff : WithoutLines a o) (hcor : a.correction = true)
    {f0 : List Nat} (h0 : agglomerateOneLevel P { a with correction := false } o = (⟨f0, o.linesIdx, o.lines⟩, .ok ()))
    (hlarge : ∀ k ∈ f0, sizeLimit a < f0.count k) : agglomerateOneLevel P a o = (⟨f0, o.linesIdx, o.lines⟩, .ok ()) := by
  obtain ⟨f, f0', h1, h2, h4⟩ := C56_isotropic (P := P) (o := o) hm hp hcor hoff hu hl
  rw [h0] at h2
  cases h2
  obtain ⟨N, f1, D', hN, ht, hren⟩ := h4
  have hnone : smallsOf f0 0 (sizeLimit a) N = [] := by
    unfold smallsOf
    rw [List.filter_eq_nil_iff]
    intro k hk
    have := hlarge k ((hN k).2 (List.mem_range.1 hk))
    simp
    omega
  rw [hnone] at ht
  cases ht
  have : f = f0 := by
    rw [hren]
    unfold renumberedBut
    simp
  rw [this] at h1
  exact h1

/-- rows without correction, and how many cells the groups have -/
theorem row_groups {P : Platform} {a : Args W} {o : Outs} {m : Nat} (hm : ValidMesh a n) (hp : ValidParams P a) (hW : LawfulLt W)
    (hu : UniqueRows a.rowPtr a.colInd) (hoff : WithoutLines a o) (hmax : a.maxCard = m) (hcor : a.correction = false)
    (hg : IsGrid 1 ext n pos (Adj a.rowPtr a.colInd))
    (hb : ∀ c < n, a.nBnd[c]? = some (sidesOut 1 ext (pos c))) :
    ∃ f : List Nat, agglomerateOneLevel P a o = (⟨f, o.linesIdx, o.lines⟩, .ok ()) ∧ f.length = n ∧ Contiguous f ∧
      (∃ t, t * m + n % m ≤ n ∧
        ∀ i < n, ∀ j < n, (f[i]? = f[j]? ↔ rowGroup m (n % m) t (pos i 0) = rowGroup m (n % m) t (pos j 0))) ∧
      ∀ k ∈ f, m ≤ f.count k ∨ (0 < n % m ∧ n % m ≤ f.count k) := by
  have hl : NoSelfLoop a.rowPtr a.colInd := fun i h => hg.noTriangle h h h
  obtain ⟨f, h2, h3⟩ := C01_total (P := P) (o := o) hm hp (fun h => by rw [hcor] at h; cases h) hoff
  have hcon : Contiguous f := by
    have := C02_contiguous (P := P) (o := o) hm hp (fun h => by rw [hcor] at h; cases h) hoff
    rwa [h2] at this
  obtain ⟨E, p0, cs, agg, p, hE, hEg, hst, htr, hagg, hget⟩ : ∃ E p0 cs agg p, CallEnv P a E ∧
      E.g = graphOf a ∧ PoolStarted E.pool p0 ∧ IsoTrace E (GrownGreedily E) (List.replicate n false) p0 cs agg p ∧
      agg = List.replicate n true ∧ ∀ i k : Nat,
        (agglomerateOneLevel P a o).1.fcToCc[i]? = some k ↔ ∃ c, cs[k]? = some c ∧ i ∈ c.2 := by
    obtain ⟨c, p0, cs, agg, p, hc, h0, h⟩ := run_trace (o := o) hm hp hW hu hl hcor hoff
    have hE := isoInput hm hp hc
    exact ⟨isoEnvOf P a c, p0, cs, agg, p, callEnv hp hc, rfl, poolStarted hW hE.pool hE.prio h0, h⟩
  rw [h2] at hget
  simp only at hget
  have i1 := hE.dim
  have i2 := hE.goalCard
  have i3 := hE.maxCard
  have i4 := hE.minCard
  have i5 := hp.goalCard
  have i6 := hp.dim
  have i7 := hp.minCard
  have i8 := hp.maxCard
  have hbnd : ∀ c < n, E.g.nBnd[c]? = some (sidesOut 1 ext (pos c)) := by
    intro c hc
    have := Row.sides_le (ext := ext) (pos c)
    rw [hE.nBnd, List.getElem?_map, hb c hc]
    simp only [Option.map_some]
    rw [Nat.min_eq_left (by omega)]
  have hG : IsGrid 1 ext n pos (Adj E.g.rowPtr E.g.colInd) := by rw [hE.rowPtr, hE.colInd]; exact hg
  have hrc : Row.RowCfg ext n pos (Adj E.g.rowPtr E.g.colInd) E.pool := by
    refine ⟨hG, ?_, ?_⟩
    · intro x hx
      rw [hE.poolBnd]
      exact hbnd x hx
    · rw [hE.poolBnd, hE.nBnd, List.length_map]
      exact hm.bnd
  have hL := row_length hg
  have hm0 : 0 < m := by omega
  have htrace := Row.trace hrc hm0 (fun agg s order lo hi left S hrow hs hof hgr => by
    have := Row.grown (by rw [hE.rowPtr, hE.colInd]; exact hm.crs) (by rw [hE.rowPtr, hE.colInd]; exact hu) hG hbnd
      (by omega) (by omega) (by omega) hrow.len hrow.last hrow.free hs hof hgr
    rwa [show E.maxCard = m by omega] at this) hst htr
  have hpos : ∀ x < n, pos x 0 < ext 0 := fun x hx => hg.range x hx 0 (by omega)
  have hwcard : ∀ lo hi c, lo ≤ hi → hi ≤ ext 0 → Row.Whole n pos m (ext 0) lo hi c → m ≤ c.2.card := by
    rintro lo hi c _ _ ⟨x, hx, hp⟩
    have := part_card hg hp (by omega)
    omega
  obtain ⟨t, ht, hblocks, hcards⟩ : ∃ t, t * m + n % m ≤ n ∧ (∀ c ∈ cs, c.1 < n ∧
      ∀ x, x ∈ c.2 ↔ x < n ∧ rowGroup m (n % m) t (pos x 0) = rowGroup m (n % m) t (pos c.1 0)) ∧
      ∀ c ∈ cs, m ≤ c.2.card ∨ (0 < n % m ∧ n % m ≤ c.2.card) := by
    have hmod : ∀ (t r k : Nat), r < m → n = t * m + r + k * m → n % m = r := by
      intro t r k hr e
      rw [e, show t * m + r + k * m = r + (t + k) * m by rw [Nat.add_mul]; omega, Nat.add_mul_mod_self_right, Nat.mod_eq_of_lt hr]
    rcases htrace with ⟨lo, hi, ⟨hinv, _⟩, ⟨t, h4⟩, ⟨k, h5⟩, hcs⟩ | ⟨_, _, lo, hi, h4, h5, h6, ⟨t, h7⟩, ⟨k, h8⟩, hcs⟩
    · have hlh : lo = hi := by
        by_contra hne
        have := hinv.row.le
        have := hinv.row.last
        obtain ⟨x, hx, e⟩ := Row.get hg (v := lo) (by omega)
        have := (hinv.row.free x hx).2 (by omega)
        rw [hagg, List.getElem?_replicate_of_lt hx] at this
        cases this
      have := hinv.row.last
      rw [Nat.mul_comm] at h4 h5
      have hr := hmod t 0 k (by omega) (by omega)
      refine ⟨t, by omega, fun c hc => ?_, fun c hc => Or.inl (hwcard _ _ c (by omega) (by omega) (hcs c hc))⟩
      rw [hr]
      refine Row.groups (L := ext 0) (k := k) hm0 hm0 (by omega) (Or.inl ?_) hpos
      have := hcs c hc
      rw [← hlh, h4] at this
      exact this
    · rw [Nat.mul_comm] at h7 h8
      have hr := hmod t (hi - lo) k (by omega) (by omega)
      refine ⟨t, by omega, fun c hc => ?_, fun c hc => ?_⟩
      swap
      · rcases hcs c hc with h | h
        · exact Or.inl (hwcard _ _ c (by omega) (by omega) h)
        · have := part_card hg h (by omega)
          omega
      rw [hr]
      refine Row.groups (L := ext 0) (k := k) hm0 (by omega) (by omega) ?_ hpos
      have := hcs c hc
      rw [← h7, show lo + (hi - lo) = hi by omega]
      exact this.imp id (fun h => ⟨by omega, h⟩)
  have hsome : ∀ i < n, ∃ k c, f[i]? = some k ∧ cs[k]? = some c ∧ i ∈ c.2 ∧ c ∈ cs := by
    intro i hi
    have hi0 : i < f.length := by omega
    obtain ⟨c, hc, hic⟩ := (hget i f[i]).1 (List.getElem?_eq_getElem hi0)
    exact ⟨_, c, List.getElem?_eq_getElem hi0, hc, hic, List.mem_of_getElem? hc⟩
  refine ⟨f, h2, h3, hcon, ⟨t, ht, ?_⟩, ?_⟩
  swap
  · intro k hk
    obtain ⟨i, hi⟩ := List.mem_iff_getElem?.1 hk
    obtain ⟨k', c, e1, hk, _, hc⟩ := hsome i (by rw [← h3]; exact (List.getElem?_eq_some_iff.1 hi).1)
    rw [hi] at e1
    cases e1
    rw [count_eq_card (s := c.2) (fun i => ⟨fun h => (hget i k).2 ⟨c, hk, h⟩, fun h => by
      obtain ⟨c2, h5, h6⟩ := (hget i k).1 h
      rw [hk] at h5; cases h5; exact h6⟩)]
    exact hcards c hc
  intro i hi j hj
  obtain ⟨k, c, e1, e2, e3, e4⟩ := hsome i hi
  obtain ⟨k', c', e1', e2', e3', e4'⟩ := hsome j hj
  have hi' := ((hblocks c e4).2 i).1 e3
  have hj' := ((hblocks c' e4').2 j).1 e3'
  constructor
  · intro h
    rw [e1, e1'] at h
    cases h
    rw [e2] at e2'
    cases e2'
    exact hi'.2.trans hj'.2.symm
  · intro h
    have : j ∈ c.2 := ((hblocks c e4).2 j).2 ⟨hj, h.symm.trans hi'.2⟩
    rw [e1, (hget j k).2 ⟨c, e2, this⟩]

/-- **C106** A mesh whose connectivity is that of a row of cells is coarsened into groups of `max_card` consecutive cells counted
from both ends, and one group with the cells that are left if the number of cells is not a multiple of `max_card`: whatever the
dimension given, the numbering of the cells, weights, volumes, centers, priorities, order of the seeds, neighbourhood, number of
iterations, aspect ratio, `goal_card` and `min_card`. If correction is switched on, the cells left have to be more than the threshold
or at least `min_card`, or none. -/
theorem C106_rows {P : Platform} {a : Args W} {o : Outs} {m : Nat} (hm : ValidMesh a n) (hp : ValidParams P a) (hW : LawfulLt W)
    (hu : UniqueRows a.rowPtr a.colInd) (hoff : WithoutLines a o) (hmax : a.maxCard = m)
    (hcor : a.correction = true → n % m = 0 ∨ a.singThresh < (n % m : Nat) ∨ a.minCard ≤ (n % m : Nat))
    (hg : IsGrid 1 ext n pos (Adj a.rowPtr a.colInd))
    (hb : ∀ c < n, a.nBnd[c]? = some (sidesOut 1 ext (pos c))) :
    ∃ f : List Nat, agglomerateOneLevel P a o = (⟨f, o.linesIdx, o.lines⟩, .ok ()) ∧ f.length = n ∧ Contiguous f ∧
      ∃ t, t * m + n % m ≤ n ∧
        ∀ i < n, ∀ j < n, (f[i]? = f[j]? ↔ rowGroup m (n % m) t (pos i 0) = rowGroup m (n % m) t (pos j 0)) := by
  obtain ⟨f, h1, h2, h3, h4, h5⟩ := row_groups (P := P) (a := { a with correction := false }) (o := o) { hm with } { hp with } hW hu hoff
    hmax rfl hg hb
  cases hc : a.correction with
  | false =>
    have : { a with correction := false } = a := by rw [← hc]
    rw [this] at h1
    exact ⟨f, h1, h2, h3, h4⟩
  | true =>
    refine ⟨f, corrects_nothing hm hp hu (fun i h => hg.noTriangle h h h) hoff hc h1 ?_, h2, h3, h4⟩
    intro k hk
    have i5 := hp.goalCard
    have i7 := hp.minCard
    have i8 := hp.maxCard
    have i9 := hp.thresh
    have := h5 k hk
    have := hcor hc
    unfold sizeLimit
    omega

/-- six cells in groups of four and two -/
example := C106_rows (P := exPlatform) (a := { exRow6 with maxCard := 4, correction := true }) (o := ⟨[], [], []⟩) { exRow6_valid with }
  { exRow6_params with maxCard := by decide } exLawful
  (checkUniq_sound exRow6_crs (by decide)) (Or.inl rfl) (m := 4) rfl (fun _ => by decide) exRow6_grid (by unfold sidesOut; decide +kernel)

/-- **C106** When fewer cells are left they join another group: with `max_card` = 5 and correction the six cells become one coarse
cell. -/
theorem C106_left_counterexample :
    ValidMesh { exRow6 with maxCard := 5, correction := true } 6 ∧ ValidParams exPlatform { exRow6 with maxCard := 5, correction := true } ∧
    agglomerateOneLevel exPlatform { exRow6 with maxCard := 5, correction := true } ⟨[], [], []⟩ =
      (⟨[0, 0, 0, 0, 0, 0], [], []⟩, .ok ()) ∧
    ¬ ∃ t, ∀ i < 6, ∀ j < 6, (([0, 0, 0, 0, 0, 0] : List Nat)[i]? = ([0, 0, 0, 0, 0, 0] : List Nat)[j]? ↔
      rowGroup 5 (6 % 5) t (posOf exRow6Pos i 0) = rowGroup 5 (6 % 5) t (posOf exRow6Pos j 0)) := by
  refine ⟨{ exRow6_valid with }, { exRow6_params with maxCard := by decide }, by decide +kernel, ?_⟩
  rintro ⟨t, h⟩
  have h1 := (h 2 (by decide) 1 (by decide)).1 rfl
  have e1 : posOf exRow6Pos 2 0 = 0 := by decide
  have e2 : posOf exRow6Pos 1 0 = 5 := by decide
  rw [e1, e2] at h1
  unfold rowGroup at h1
  split_ifs at h1 <;> omega

end CoMMA
