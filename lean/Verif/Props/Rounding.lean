import Verif.Lemmas.DoubleExact
import Verif.Props.Hierarchy
/-! # C79: volumes of coarse cells in double precision -/

set_option linter.unusedSectionVars false

namespace CoMMA

variable {W : Type} [Num W]

theorem cellsOf_lt {f2c : List Nat} {k i : Nat} (h : i ∈ cellsOf f2c k) : i < f2c.length :=
  (List.getElem?_eq_some_iff.1 (mem_cellsOf.1 h)).1

theorem cells_sum {maps : List (List Nat)} {f : List Nat} {N : Nat} (hN : ∀ k ∈ f, k < N) (k : Nat) (φ : Nat → ℚ) :
    ((finestOf maps N k).map (fun j => ((cellsOf f j).map φ).sum)).sum = ((finestOf (f :: maps) f.length k).map φ).sum := by
  have := sum_fibers (f2c := fun i => f[i]?) φ (J := finestOf maps N k) (List.nodup_range.filter _) (List.range f.length)
  unfold cellsOf
  rw [this]
  congr 2
  refine List.filter_congr fun i hi => ?_
  have hi := List.mem_range.1 hi
  have hfi : f[i]? = some f[i] := List.getElem?_eq_getElem hi
  have hlt := hN f[i] (List.getElem_mem hi)
  congr 1
  simp only [composeMaps, finestOf, List.mem_filter, List.mem_range, decide_eq_true_eq, hfi, Option.bind_some, eq_iff_iff]
  constructor
  · rintro ⟨j, hj, he⟩
    cases he
    exact hj.2
  · intro h
    exact ⟨f[i], ⟨hlt, h⟩, rfl⟩

theorem finestOf_nil {n k : Nat} (hk : k < n) : finestOf [] n k = [k] := by
  unfold finestOf composeMaps
  simp only [Option.some.injEq]
  induction n with
  | zero => omega
  | succ m ih =>
    rw [List.range_succ, List.filter_append]
    by_cases hm : k < m
    · rw [ih hm]; simp [show ¬ m = k by omega]
    · have : m = k := by omega
      subst this
      have : (List.range m).filter (fun i => decide (i = m)) = [] := by
        rw [List.filter_eq_nil_iff]
        intro a ha
        have := List.mem_range.1 ha
        simp; omega
      rw [this]; simp

theorem fibers_all {f2c : List Nat} {N : Nat} (hN : ∀ k, k ∈ f2c ↔ k < N) (φ : Nat → ℚ) :
    ((List.range N).map (fun j => ((cellsOf f2c j).map φ).sum)).sum = ((List.range f2c.length).map φ).sum := by
  unfold cellsOf
  rw [sum_fibers (f2c := fun i => f2c[i]?) φ List.nodup_range]
  congr 2
  rw [List.filter_eq_self]
  intro i hi
  have hi := List.mem_range.1 hi
  simp only [List.mem_range, decide_eq_true_eq]
  exact ⟨f2c[i], (hN _).1 (List.getElem_mem hi), List.getElem?_eq_getElem hi⟩

theorem near_volume {v : W → ℚ} {Fin : W → Prop} {u : ℚ} (hR : RoundedAdd W v Fin u) {g g' : MeshData W} {n N : Nat}
    {f2c : List Nat} (hn : g.volumes.length = n) (hf : f2c.length = n)
    (hv : g'.volumes = (List.range N).map (fun k => sumW (entriesAt g.volumes (cellsOf f2c k)))) {k : Nat} {V : W}
    (hk : g'.volumes[k]? = some V) (hV : Fin V) : NearSum v u g.volumes (cellsOf f2c k) V := by
  rw [hv, List.getElem?_map] at hk
  obtain ⟨k', h1, rfl⟩ := Option.map_eq_some_iff.1 hk
  have : k = k' := by
    have := List.getElem?_eq_some_iff.1 h1
    simpa using this.2
  subst this
  refine (nearSum_sumW hR ?_ hV).2
  intro i hi
  have := cellsOf_lt hi
  omega

/-- a coarse volume that is finite has finite parts -/
theorem finite_parts {v : W → ℚ} {Fin : W → Prop} {u : ℚ} (hR : RoundedAdd W v Fin u) {x : List W} {l : List Nat} {V : W}
    (hV : V = sumW (entriesAt x l)) (hf : Fin V) {i : Nat} (hi : i ∈ l) {y : W} (hy : x[i]? = some y) : Fin y := by
  subst hV
  exact (sumW_error hR _ hf).1 y (List.mem_filterMap.2 ⟨i, hi, hy⟩)

theorem volumes_of {g g' : MeshData W} {n N : Nat} {z : Int} {f : List Nat} (hg : ValidData g n) (hf : f.length = n)
    (hN : CoarseCount f N) (hb : buildCoarseGraph z f g = .ok g') :
    g'.volumes = (List.range N).map (fun k => sumW (entriesAt g.volumes (cellsOf f k))) := by
  obtain ⟨out, D, rows, h1, _, _, h3⟩ := hN.exists_ok hg hf z
  rw [hb] at h1
  cases h1
  exact h3

/-- as `C79_levels`, for any rounded addition -/
theorem rounded_levels {v : W → ℚ} {Fin : W → Prop} {u : ℚ} (hR : RoundedAdd W v Fin u)
    {P : Platform} {z : Int} (hz : z ≤ 0) (hirr : Num.lt (Num.lmin : W) Num.lmin = false)
    {above : Prop} (levels : List (MeshData W → Outs → Args W)) {n : Nat} {g : MeshData W} (hg : GoodMesh g n)
    (hab : above → PrioritiesAbove g)
    (hl : ∀ s ∈ levels, ∀ g' o' n', GoodMesh g' n' → n' ≤ n → (above → PrioritiesAbove g') →
      KnownCall P ((s g' o').onMesh g') o' n') (o : Outs) :
    ∃ maps gN N, runLevels P z levels g o = .ok (maps, gN) ∧ GoodMesh gN N ∧
      (∀ k V, gN.volumes[k]? = some V → Fin V → (∀ i ∈ finestOf maps n k, ∀ x, g.volumes[i]? = some x → Fin x) ∧
        NearSum v u g.volumes (finestOf maps n k) V) ∧
      ∀ i, i < n → ∃ k, k < N ∧ composeMaps maps i = some k := by
  induction levels generalizing n g o with
  | nil =>
    refine ⟨[], g, n, rfl, hg, ?_, fun i hi => ⟨i, hi, rfl⟩⟩
    intro k V hk hV
    have hkn : k < n := by rw [← hg.volumes]; exact (List.getElem?_eq_some_iff.1 hk).1
    rw [finestOf_nil hkn]
    refine ⟨?_, ?_⟩
    · intro i hi x hx
      rw [List.mem_singleton.1 hi, hk] at hx
      cases hx
      exact hV
    · unfold NearSum
      rw [exactSum_eq]
      simp [entryVal, hk]
  | cons s r ih =>
    obtain ⟨out, g', N, h⟩ := level_made hz hg (hl s (by simp) g o n hg (Nat.le_refl n) hab)
    have hle := h.le
    obtain ⟨maps, gN, M, h8, h9, h10, h11⟩ := ih h.good (fun hh => h.above hirr (hab hh))
      (fun s hs g' o' n' hg' hn' => hl s (List.mem_cons_of_mem _ hs) g' o' n' hg' (by omega)) out
    have hcc : CoarseCount out.fcToCc N := ⟨fun k hk => (h.all k).1 hk, (h.all _).2 (by have := h.good.pos; omega)⟩
    have hvol := volumes_of hg.validData h.len hcc h.build
    have hget : ∀ j Y, g'.volumes[j]? = some Y → Y = sumW (entriesAt g.volumes (cellsOf out.fcToCc j)) := by
      intro j Y hj
      rw [hvol, List.getElem?_map] at hj
      obtain ⟨k', h1, rfl⟩ := Option.map_eq_some_iff.1 hj
      have : j = k' := by
        have := List.getElem?_eq_some_iff.1 h1
        simpa using this.2
      rw [this]
    refine ⟨out.fcToCc :: maps, gN, M, ?_, h9, ?_, ?_⟩
    · unfold runLevels
      rw [h.call]
      simp only [h.build, h8]
    · intro k V hk hV
      obtain ⟨k1, k2⟩ := h10 k V hk hV
      have hj : ∀ j ∈ finestOf maps N k, ∃ Y, g'.volumes[j]? = some Y ∧ Fin Y ∧
          NearSum v u g.volumes (cellsOf out.fcToCc j) Y := by
        intro j hj
        have hjN : j < N := List.mem_range.1 (List.mem_filter.1 hj).1
        have hjv : j < g'.volumes.length := by rw [h.good.volumes]; exact hjN
        have hY := List.getElem?_eq_getElem hjv
        exact ⟨_, hY, k1 j hj _ hY, near_volume hR hg.volumes h.len hvol hY (k1 j hj _ hY)⟩
      refine ⟨?_, ?_⟩
      · intro i hi x hx
        have hi2 := (List.mem_filter.1 hi).2
        have hin : i < out.fcToCc.length := by rw [h.len]; exact List.mem_range.1 (List.mem_filter.1 hi).1
        have hfi : out.fcToCc[i]? = some out.fcToCc[i] := List.getElem?_eq_getElem hin
        simp only [composeMaps, hfi, Option.bind_some, decide_eq_true_eq] at hi2
        have hm : out.fcToCc[i] ∈ finestOf maps N k := List.mem_filter.2
          ⟨List.mem_range.2 ((h.all _).1 (List.getElem_mem hin)), by simpa using hi2⟩
        obtain ⟨Y, e1, e2, _⟩ := hj _ hm
        exact finite_parts hR (hget _ _ e1) e2 (mem_cellsOf.2 hfi) hx
      · refine nearSum_trans hR.nonneg (J := finestOf maps N k) (part := cellsOf out.fcToCc) ?_ ?_ ?_ k2
        · intro φ
          rw [cells_sum (fun k hk => (h.all k).1 hk), h.len]
        · intro j hj
          have hjN : j < N := List.mem_range.1 (List.mem_filter.1 hj).1
          obtain ⟨i, hi⟩ := List.mem_iff_getElem?.1 ((h.all j).2 hjN)
          exact List.length_pos_of_mem (mem_cellsOf.2 hi)
        · intro j hj'
          obtain ⟨Y, e1, _, e2⟩ := hj j hj'
          exact ⟨Y, e1, e2⟩
    · intro i hi
      have hi' : i < out.fcToCc.length := by rw [h.len]; exact hi
      obtain ⟨k, hk, hc⟩ := h11 out.fcToCc[i] ((h.all _).1 (List.getElem_mem hi'))
      exact ⟨k, hk, by simp [composeMaps, List.getElem?_eq_getElem hi', hc]⟩

/-- a volume computed from the volumes at `l` lies within the error of `l.length - 1` roundings to double
precision of their exact sum -/
def WithinRounding (x : List Dbl) (l : List Nat) (V : ℚ) : Prop :=
  |V - exactSum Dbl.value x l| ≤ ((1 + (2 : ℚ) ^ (-53 : Int)) ^ (l.length - 1) - 1) * exactSize Dbl.value x l

/-- **C79** `build_coarse_graph` in double precision: a finite volume of a coarse cell is the exact sum of the volumes
of its cells up to one rounding error per addition; no cell of a coarse cell is larger than the coarse cell if
no volume is negative. -/
theorem C79_volumes {g : MeshData Dbl} {n : Nat} (hg : ValidData g n) {f2c : List Nat} (hf : f2c.length = n)
    {N : Nat} (hN : CoarseCount f2c N) (z : Int) :
    ∃ out, buildCoarseGraph z f2c g = .ok out ∧ out.volumes.length = N ∧
      ∀ k V, out.volumes[k]? = some V →
        (V.Finite → WithinRounding g.volumes (cellsOf f2c k) V.value) ∧
        ((∀ x ∈ g.volumes, x.Finite ∧ 0 ≤ x.value) →
          ∀ (i : Nat) (x : Dbl), f2c[i]? = some k → g.volumes[i]? = some x → x.value ≤ V.value) := by
  obtain ⟨out, D, rows, h1, _, _, h3⟩ := hN.exists_ok hg hf z
  refine ⟨out, h1, by rw [h3]; simp, ?_⟩
  intro k V hk
  refine ⟨fun hV => near_volume dbl_rounded hg.volumes hf h3 hk hV, ?_⟩
  intro hpos i x hi hx
  rw [h3, List.getElem?_map] at hk
  obtain ⟨k', h4, rfl⟩ := Option.map_eq_some_iff.1 hk
  have : k = k' := by
    have := List.getElem?_eq_some_iff.1 h4
    simpa using this.2
  subst this
  have hmem : x ∈ entriesAt g.volumes (cellsOf f2c k) := List.mem_filterMap.2 ⟨i, mem_cellsOf.2 hi, hx⟩
  have hz : ∀ y : Dbl, Num.lt y (Num.ofNat 0) = false ↔ 0 ≤ y.value := by
    intro y
    have h0 : (Num.ofNat 0 : Dbl) = ⟨0⟩ := rfl
    rw [h0, show (0 : ℚ) = (⟨0⟩ : Dbl).value from Dbl.value_zero.symm, Dbl.value_le]
    show decide _ = false ↔ _
    simp
  have hall : ∀ y ∈ entriesAt g.volumes (cellsOf f2c k), y ∈ g.volumes := by
    intro y hy
    obtain ⟨j, _, hj⟩ := List.mem_filterMap.1 hy
    exact List.mem_of_getElem? hj
  have := (foldl_grows dbl_lawful dbl_growing (entriesAt g.volumes (cellsOf f2c k))
    (fun y hy => (hz y).2 (hpos y (hall y hy)).2) (Num.ofNat 0) (dbl_lawful.irrefl _)).2.1 x hmem (hpos x (hall x hmem)).1
  rw [Dbl.value_le]
  have h' : decide _ = false := this
  have := of_decide_eq_false h'
  unfold sumW
  omega

/-- **C79** The total volume: the exact sum of the coarse volumes, if these are finite, is the exact sum of the fine volumes up to
the error of at most `n - 1` roundings. -/
theorem C79_total {g : MeshData Dbl} {n : Nat} (hg : ValidData g n) {f2c : List Nat} (hf : f2c.length = n)
    {N : Nat} (hN : ∀ k, k ∈ f2c ↔ k < N) (z : Int) :
    ∃ out, buildCoarseGraph z f2c g = .ok out ∧
      ((∀ V ∈ out.volumes, V.Finite) → WithinRounding g.volumes (List.range n) ((out.volumes.map Dbl.value).sum)) := by
  have hpos : 0 < N := by
    have hp := hg.pos
    have : 0 < f2c.length := by omega
    have := (hN f2c[0]).1 (List.getElem_mem this)
    omega
  have hcc : CoarseCount f2c N := ⟨fun k hk => (hN k).1 hk, (hN _).2 (by omega)⟩
  obtain ⟨out, D, rows, h1, _, _, h3⟩ := hcc.exists_ok hg hf z
  refine ⟨out, h1, ?_⟩
  intro hfin
  have hu := dbl_rounded.nonneg
  have h1u : (1 : ℚ) ≤ 1 + (2 : ℚ) ^ (-53 : Int) := by linarith
  have hfull : ∀ φ : Nat → ℚ, ((List.range N).map (fun j => ((cellsOf f2c j).map φ).sum)).sum = ((List.range n).map φ).sum := by
    intro φ
    rw [fibers_all hN, hf]
  have hlen : ∀ j ∈ List.range N, (cellsOf f2c j).length ≤ n := by
    intro j _
    rw [← hf]
    refine (List.length_filter_le _ _).trans ?_
    simp
  have hsum : (out.volumes.map Dbl.value).sum = ((List.range N).map (entryVal Dbl.value out.volumes)).sum := by
    have hl : out.volumes.length = N := by rw [h3]; simp
    congr 1
    refine List.ext_getElem (by simp [hl]) ?_
    intro i hi1 hi2
    simp only [List.length_map] at hi1
    simp [entryVal, hi1]
  unfold WithinRounding
  rw [hsum]
  have hj : ∀ j ∈ List.range N, |entryVal Dbl.value out.volumes j - exactSum Dbl.value g.volumes (cellsOf f2c j)| ≤
      ((1 + (2 : ℚ) ^ (-53 : Int)) ^ (n - 1) - 1) * exactSize Dbl.value g.volumes (cellsOf f2c j) := by
    intro j hj
    have hjv : j < out.volumes.length := by rw [h3]; simpa using hj
    have hY := List.getElem?_eq_getElem hjv
    have := near_volume dbl_rounded hg.volumes hf h3 hY (hfin _ (List.getElem_mem hjv))
    have e : entryVal Dbl.value out.volumes j = Dbl.value out.volumes[j] := by simp [entryVal, hY]
    rw [e]
    refine le_trans this ?_
    refine mul_le_mul_of_nonneg_right ?_ (exactSize_nonneg _ _ _)
    have := pow_le_pow_right₀ h1u (m := (cellsOf f2c j).length - 1) (n := n - 1) (by have := hlen j hj; omega)
    linarith
  have e1 : exactSum Dbl.value g.volumes (List.range n) =
      ((List.range N).map (fun j => exactSum Dbl.value g.volumes (cellsOf f2c j))).sum := by
    rw [exactSum_eq, ← hfull]
    congr 1
    exact List.map_congr_left fun j _ => (exactSum_eq _ _ _).symm
  have e2 : exactSize Dbl.value g.volumes (List.range n) =
      ((List.range N).map (fun j => exactSize Dbl.value g.volumes (cellsOf f2c j))).sum := by
    rw [exactSize_eq, ← hfull]
    congr 1
    exact List.map_congr_left fun j _ => (exactSize_eq _ _ _).symm
  rw [e1, e2, sum_map_sub', sum_map_const_mul, List.length_range]
  exact (sum_abs_le _ _).trans (sum_map_le hj)

/-- **C79** Any number of levels in double precision: a finite volume of a coarsest cell is the exact sum of the volumes of its
finest cells up to one rounding less than there are finest cells, however the levels group them. -/
theorem C79_levels {P : Platform} {z : Int} (hz : z ≤ 0)
    {above : Prop} (levels : List (MeshData Dbl → Outs → Args Dbl)) {n : Nat} {g : MeshData Dbl} (hg : GoodMesh g n)
    (hab : above → PrioritiesAbove g)
    (hl : ∀ s ∈ levels, ∀ g' o' n', GoodMesh g' n' → n' ≤ n → (above → PrioritiesAbove g') →
      KnownCall P ((s g' o').onMesh g') o' n') (o : Outs) :
    ∃ maps gN N, runLevels P z levels g o = .ok (maps, gN) ∧ GoodMesh gN N ∧
      (∀ k V, gN.volumes[k]? = some V → V.Finite → WithinRounding g.volumes (finestOf maps n k) V.value) ∧
      ∀ i, i < n → ∃ k, k < N ∧ composeMaps maps i = some k := by
  obtain ⟨maps, gN, N, h1, h2, h3, h4⟩ := rounded_levels dbl_rounded hz (dbl_lawful.irrefl _) levels hg hab hl o
  exact ⟨maps, gN, N, h1, h2, fun k V hk hV => (h3 k V hk hV).2, h4⟩

/-- all numbers positive -/
def AllPositive (l : List W) : Prop := ∀ x ∈ l, Num.lt (Num.ofNat 0) x = true

theorem sumW_positive {Fin : W → Prop} (hL : LawfulLt W) (hG : GrowingAdd W Fin) {l : List W} (hl : AllPositive l) (hne : l ≠ []) :
    Num.lt (Num.ofNat 0) (sumW l) = true := by
  have nn : ∀ y : W, Num.lt (Num.ofNat 0) y = true → Num.lt y (Num.ofNat 0) = false := by
    intro y hy
    cases hc : Num.lt y (Num.ofNat 0) with
    | false => rfl
    | true => have := hL.irrefl (Num.ofNat 0); rw [hL.trans _ _ _ hy hc] at this; cases this
  cases l with
  | nil => exact absurd rfl hne
  | cons x l =>
    rw [sumW_cons_zero hG.zeroAdd]
    exact (foldl_grows hL hG l (fun y hy => nn y (hl y (by simp [hy]))) x (nn x (hl x (by simp)))).2.2 (hl x (by simp))

theorem positive_coarse {Fin : W → Prop} (hL : LawfulLt W) (hG : GrowingAdd W Fin) {g : MeshData W} {n : Nat} (hg : ValidData g n)
    {f2c : List Nat} (hf : f2c.length = n) {N : Nat} (hN : ∀ k, k ∈ f2c ↔ k < N) (hc : CoarseCount f2c N) {z : Int} {out : MeshData W}
    (hb : buildCoarseGraph z f2c g = .ok out) :
    (AllPositive g.volumes → AllPositive out.volumes) ∧ (AllPositive g.weights → AllPositive out.weights) := by
  obtain ⟨out', D, rows, h1, _, h2, h3⟩ := hc.exists_ok hg hf z
  rw [hb] at h1; cases h1
  refine ⟨?_, ?_⟩
  · intro hp V hV
    rw [h3] at hV
    obtain ⟨k, hk, rfl⟩ := List.mem_map.1 hV
    obtain ⟨i, hi⟩ := List.mem_iff_getElem?.1 ((hN k).2 (List.mem_range.1 hk))
    have hil : i < g.volumes.length := by rw [hg.volumes, ← hf]; exact (List.getElem?_eq_some_iff.1 hi).1
    refine sumW_positive hL hG ?_ ?_
    · intro x hx
      obtain ⟨j, _, hj⟩ := List.mem_filterMap.1 hx
      exact hp x (List.mem_of_getElem? hj)
    · exact List.ne_nil_of_mem (List.mem_filterMap.2 ⟨i, mem_cellsOf.2 hi, List.getElem?_eq_getElem hil⟩)
  · intro hp w hw
    rw [h2.weights] at hw
    obtain ⟨r, hr, hwr⟩ := List.mem_flatten.1 hw
    obtain ⟨m, hm, rfl⟩ := List.mem_map.1 hr
    obtain ⟨⟨l, w'⟩, hlw, rfl⟩ := List.mem_map.1 hwr
    obtain ⟨k, hk⟩ := List.mem_iff_getElem?.1 hm
    have hfind := NMap.find?_eq_some.2 hlw
    rw [h2.row k m hk l] at hfind
    by_cases hcond : l ≠ k ∧ inCoarse f2c l ((cellsOf f2c k).flatMap (rowOf g.adjIdx g.adj)) ≠ []
    · rw [if_pos hcond] at hfind
      cases hfind
      refine sumW_positive hL hG ?_ ?_
      · intro x hx
        obtain ⟨j, _, hj⟩ := List.mem_filterMap.1 hx
        exact hp x (List.mem_of_getElem? hj)
      · obtain ⟨j, t, hjt⟩ := List.ne_nil_iff_exists_cons.1 hcond.2
        have hj : j ∈ inCoarse f2c l ((cellsOf f2c k).flatMap (rowOf g.adjIdx g.adj)) := by rw [hjt]; simp
        have hj2 := hj
        unfold inCoarse at hj2
        obtain ⟨i, _, hi⟩ := List.mem_flatMap.1 (List.mem_filter.1 hj2).1
        obtain ⟨b, e, q, _, _, _, _, hq⟩ := (adj_iff_rowOf).2 hi
        have hjw := hg.cover j (List.mem_of_getElem? hq)
        exact List.ne_nil_of_mem (List.mem_filterMap.2 ⟨j, hj, List.getElem?_eq_getElem hjw⟩)
    · rw [if_neg hcond] at hfind; cases hfind

/-- **C79** Positive volumes and face weights stay positive at every level, in double precision as in exact arithmetic. -/
theorem C79_positive {P : Platform} {z : Int} (hz : z ≤ 0)
    {above : Prop} (levels : List (MeshData Dbl → Outs → Args Dbl)) {n : Nat} {g : MeshData Dbl} (hg : GoodMesh g n)
    (hab : above → PrioritiesAbove g)
    (hl : ∀ s ∈ levels, ∀ g' o' n', GoodMesh g' n' → n' ≤ n → (above → PrioritiesAbove g') →
      KnownCall P ((s g' o').onMesh g') o' n') (o : Outs)
    (hv : ∀ x ∈ g.volumes, 0 < x.value) (hw : ∀ x ∈ g.weights, 0 < x.value) :
    EveryLevel P z (fun g' _ => (∀ x ∈ g'.volumes, 0 < x.value) ∧ ∀ x ∈ g'.weights, 0 < x.value) levels g o := by
  have e : ∀ l : List Dbl, AllPositive l ↔ ∀ x ∈ l, 0 < x.value := by
    intro l
    refine forall₂_congr fun x _ => ?_
    have h0 : (Num.ofNat 0 : Dbl) = ⟨0⟩ := rfl
    rw [h0, show (0 : ℚ) = (⟨0⟩ : Dbl).value from Dbl.value_zero.symm, Dbl.value_lt]
    show decide _ = true ↔ _
    simp
  induction levels generalizing n g o with
  | nil => exact ⟨hv, hw⟩
  | cons s r ih =>
    obtain ⟨out, g', N, h⟩ := level_made hz hg (hl s (by simp) g o n hg (Nat.le_refl n) hab)
    have hle := h.le
    have hcc : CoarseCount out.fcToCc N := ⟨fun k hk => (h.all k).1 hk, (h.all _).2 (by have := h.good.pos; omega)⟩
    obtain ⟨k1, k2⟩ := positive_coarse dbl_lawful dbl_growing hg.validData h.len h.all hcc h.build
    exact ⟨⟨hv, hw⟩, out, g', h.call, h.build, ih h.good (fun hh => h.above (dbl_lawful.irrefl _) (hab hh))
      (fun s hs g' o' n' hg' hn' => hl s (List.mem_cons_of_mem _ hs) g' o' n' hg' (by omega)) out
      ((e _).1 (k1 ((e _).2 hv))) ((e _).1 (k2 ((e _).2 hw)))⟩

/-- **C79** Volumes that are multiples of one power of two, of total size at most 2^53 of it (counts, dyadic grids): no rounding at
any level, every coarsest volume is the exact sum of the volumes of its finest cells. -/
theorem C79_exact {P : Platform} {z : Int} (hz : z ≤ 0)
    {above : Prop} (levels : List (MeshData Dbl → Outs → Args Dbl)) {n : Nat} {g : MeshData Dbl} (hg : GoodMesh g n)
    (hab : above → PrioritiesAbove g)
    (hl : ∀ s ∈ levels, ∀ g' o' n', GoodMesh g' n' → n' ≤ n → (above → PrioritiesAbove g') →
      KnownCall P ((s g' o').onMesh g') o' n') (o : Outs)
    {e : Int} (he : -1074 ≤ e) (he2 : e < 970) (hm : ∀ x ∈ g.volumes, x.Finite ∧ ∃ m : Int, x.value = (m : ℚ) * (2 : ℚ) ^ e)
    (hs : exactSize Dbl.value g.volumes (List.range n) ≤ (2 : ℚ) ^ 53 * (2 : ℚ) ^ e) :
    ∃ maps gN N, runLevels P z levels g o = .ok (maps, gN) ∧ GoodMesh gN N ∧
      ∀ k V, gN.volumes[k]? = some V → V.Finite ∧ V.value = exactSum Dbl.value g.volumes (finestOf maps n k) := by
  induction levels generalizing n g o with
  | nil =>
    refine ⟨[], g, n, rfl, hg, ?_⟩
    intro k V hk
    have hkn : k < n := by rw [← hg.volumes]; exact (List.getElem?_eq_some_iff.1 hk).1
    rw [finestOf_nil hkn, exactSum_eq]
    exact ⟨(hm V (List.mem_of_getElem? hk)).1, by simp [entryVal, hk]⟩
  | cons s r ih =>
    obtain ⟨out, g', N, h⟩ := level_made hz hg (hl s (by simp) g o n hg (Nat.le_refl n) hab)
    have hle := h.le
    have hcc : CoarseCount out.fcToCc N := ⟨fun k hk => (h.all k).1 hk, (h.all _).2 (by have := h.good.pos; omega)⟩
    have hvol := volumes_of hg.validData h.len hcc h.build
    have htot : ((List.range N).map (fun j => exactSize Dbl.value g.volumes (cellsOf out.fcToCc j))).sum =
        exactSize Dbl.value g.volumes (List.range n) := by
      rw [exactSize_eq, ← h.len, ← fibers_all h.all]
      congr 1
      exact List.map_congr_left fun j _ => exactSize_eq _ _ _
    have hpart : ∀ j, j < N → Multiple e (sumW (entriesAt g.volumes (cellsOf out.fcToCc j))) ∧
        (sumW (entriesAt g.volumes (cellsOf out.fcToCc j))).value = exactSum Dbl.value g.volumes (cellsOf out.fcToCc j) := by
      intro j hj
      refine sumW_exact he he2 hm (le_trans ?_ hs)
      rw [← htot]
      exact List.single_le_sum (fun y hy => by
        obtain ⟨i, _, rfl⟩ := List.mem_map.1 hy
        exact exactSize_nonneg _ _ _) _ (List.mem_map.2 ⟨j, List.mem_range.2 hj, rfl⟩)
    have hget : ∀ j, j < N → g'.volumes[j]? = some (sumW (entriesAt g.volumes (cellsOf out.fcToCc j))) := by
      intro j hj
      rw [hvol]; simp [hj]
    obtain ⟨maps, gN, M, h8, h9, h10⟩ := ih h.good (fun hh => h.above (dbl_lawful.irrefl _) (hab hh))
      (fun s hs g' o' n' hg' hn' => hl s (List.mem_cons_of_mem _ hs) g' o' n' hg' (by omega)) out
      (by
        intro x hx
        rw [hvol] at hx
        obtain ⟨j, hj, rfl⟩ := List.mem_map.1 hx
        exact (hpart j (List.mem_range.1 hj)).1)
      (by
        refine le_trans ?_ hs
        rw [← htot, exactSize_eq]
        refine sum_map_le ?_
        intro j hj
        have hjN := List.mem_range.1 hj
        have : entryVal Dbl.value g'.volumes j = exactSum Dbl.value g.volumes (cellsOf out.fcToCc j) := by
          rw [← (hpart j hjN).2]; simp [entryVal, hget j hjN]
        rw [this, exactSum_eq, exactSize_eq]
        exact sum_abs_le _ _)
    refine ⟨out.fcToCc :: maps, gN, M, ?_, h9, ?_⟩
    · unfold runLevels
      rw [h.call]
      simp only [h.build, h8]
    · intro k V hk
      obtain ⟨k1, k2⟩ := h10 k V hk
      refine ⟨k1, ?_⟩
      rw [k2, exactSum_eq, exactSum_eq, ← h.len, ← cells_sum (N := N) (fun k hk => (h.all k).1 hk)]
      congr 1
      refine List.map_congr_left fun j hj => ?_
      have hjN : j < N := List.mem_range.1 (List.mem_filter.1 hj).1
      rw [← exactSum_eq, ← (hpart j hjN).2]
      simp [entryVal, hget j hjN]

/-- **C79** The additions, multiplications and divisions of the model of doubles are those of IEEE 754: no double is closer to the exact
result than a finite result, and an exact result that is a double is the result. -/
theorem C79_arithmetic {a b : Dbl} (ha : a.Finite) (hb : b.Finite) :
    ((Num.add a b).Finite → ∀ c : Dbl, |(Num.add a b).value - (a.value + b.value)| ≤ |c.value - (a.value + b.value)|) ∧
    ((Num.mul a b).Finite → ∀ c : Dbl, |(Num.mul a b).value - a.value * b.value| ≤ |c.value - a.value * b.value|) ∧
    (b.value ≠ 0 → (Num.div a b).Finite → ∀ c : Dbl, |(Num.div a b).value - a.value / b.value| ≤ |c.value - a.value / b.value|) ∧
    ∀ c : Dbl, c.Finite → (a.value + b.value = c.value → Num.add a b = c) ∧ (a.value * b.value = c.value → Num.mul a b = c) ∧
      (b.value ≠ 0 → a.value / b.value = c.value → Num.div a b = c) := by
  obtain ⟨n1, e1, _, h1, h1'⟩ := Dbl.add_eq ha hb
  obtain ⟨n2, e2, h2, h2'⟩ := Dbl.mul_eq ha hb
  have hz : b.value ≠ 0 → b.code ≠ 0 := by
    intro h h0
    have : b = ⟨0⟩ := by cases b; simp_all
    rw [this, Dbl.value_zero] at h
    exact h rfl
  refine ⟨?_, ?_, ?_, ?_⟩
  · intro hf c
    have hf : (Dbl.add a b).Finite := hf
    show |(Dbl.add a b).value - _| ≤ _
    rw [h1] at hf ⊢
    rw [← h1']
    exact Dbl.roundInt_nearest (by omega) hf c
  · intro hf c
    have hf : (Dbl.mul a b).Finite := hf
    show |(Dbl.mul a b).value - _| ≤ _
    rw [h2] at hf ⊢
    rw [← h2']
    exact Dbl.roundInt_nearest (by omega) hf c
  · intro h0 hf c
    obtain ⟨n, d, e, hd, h3, h3'⟩ := Dbl.div_eq ha hb (hz h0)
    have hf : (Dbl.div a b).Finite := hf
    show |(Dbl.div a b).value - _| ≤ _
    rw [h3] at hf ⊢
    rw [← h3']
    exact Dbl.roundInt_nearest hd hf c
  · intro c hc
    refine ⟨?_, ?_, ?_⟩
    · intro h
      show Dbl.add a b = c
      rw [h1]
      exact Dbl.roundInt_exact (by omega) hc (h1'.trans h)
    · intro h
      show Dbl.mul a b = c
      rw [h2]
      exact Dbl.roundInt_exact (by omega) hc (h2'.trans h)
    · intro h0 h
      obtain ⟨n, d, e, hd, h3, h3'⟩ := Dbl.div_eq ha hb (hz h0)
      show Dbl.div a b = c
      rw [h3]
      exact Dbl.roundInt_exact hd hc (h3'.trans h)

example := C79_arithmetic (a := Dbl.dec 1 1) (b := Dbl.dec 3 0) (by decide) (by decide)

/-- three cells in a row, volumes 0.1, 0.2 and 0.3 -/
def exThirds : MeshData Dbl :=
  ⟨[0, 1, 3, 4], [1, 0, 2, 1], [Dbl.dec 1 0, Dbl.dec 1 0, Dbl.dec 2 0, Dbl.dec 2 0], [Dbl.dec 1 1, Dbl.dec 2 1, Dbl.dec 3 1],
    [[Dbl.dec 0 0, Dbl.dec 0 0], [Dbl.dec 1 0, Dbl.dec 0 0], [Dbl.dec 2 0, Dbl.dec 0 0]], [Dbl.dec 1 0, Dbl.dec 1 0, Dbl.dec 1 0], [1, 0, 1]⟩

/-- the same cells with volumes 1, 3 and 2 quarters -/
def exQuarters : MeshData Dbl :=
  { exThirds with
    volumes := [Dbl.dec 25 2, Dbl.dec 75 2, Dbl.dec 50 2] }

/-- settings for them: pairs -/
def exPairs : Args Dbl :=
  { rowPtr := [], colInd := [], values := [], volumes := [], centers := [], prio := [], compliant := [], nBnd := [],
    buildLines := false, isAniso := false, oddLine := false, thr := Dbl.dec 4 0, order := exArgs.order, correction := false,
    dim := 2, goalCard := 2, minCard := 2, maxCard := 2, aspect := exArgs.aspect, singThresh := 1, maxCells := none,
    coupling := exArgs.coupling, forceDir := false, fcIter := 1, nbh := exArgs.nbh }

theorem exThirds_good : GoodMesh exThirds 3 where
  pos := by decide
  crs := checkCRS_sound (by decide)
  sym := checkSym_sound (checkCRS_sound (n := 3) (by decide)) (by decide)
  uniq := Or.inl (checkUniq_sound (checkCRS_sound (n := 3) (by decide)) (by decide))
  connected := connected_of_smaller (checkSym_sound (checkCRS_sound (n := 3) (by decide)) (by decide)) (by
    intro i h0 h3
    have : i = 1 ∨ i = 2 := by omega
    rcases this with rfl | rfl
    · exact ⟨0, by omega, adj_iff_rowOf.2 (by decide)⟩
    · exact ⟨1, by omega, adj_iff_rowOf.2 (by decide)⟩)
  weights := rfl
  volumes := rfl
  centers := rfl
  priority := rfl
  nBnd := rfl
  bndPos := by decide
  coords := ⟨2, by decide⟩

theorem exQuarters_good : GoodMesh exQuarters 3 := { exThirds_good with volumes := rfl }

theorem exPairs_known (s : MeshData Dbl → Outs → Args Dbl) (hs : s ∈ [fun _ _ => exPairs, fun _ _ => exPairs]) (g' : MeshData Dbl)
    (o' : Outs) (n' : Nat) : KnownCall exPlatform ((s g' o').onMesh g') o' n' := by
  have : s = fun _ _ => exPairs := by simpa using hs
  subst this
  have h := exGiven_params
  refine ⟨⟨Or.inl rfl, (by decide : (1 : Int) < 2), (by decide : (2 : Int) ≤ 2), (by decide : (2 : Int) ≤ 2), (by decide : (1 : Int) ≤ 1 ∧ (1 : Int) ≤ 4),
    (by decide : (1 : Int) ≤ 1), h.order, h.aspect, ?_⟩, fun _ => Or.inl rfl, Or.inl (Or.inl rfl)⟩
  rintro (h | h) <;> cases h

/-- three cells, two, one -/
example : (runLevels exPlatform (-100) [fun _ _ => exPairs, fun _ _ => exPairs] exThirds ⟨[], [], []⟩).map
    (fun r => (r.1, r.2.volumes)) = .ok ([[0, 0, 1], [0, 0]], [Dbl.add (Dbl.add (Dbl.dec 1 1) (Dbl.dec 2 1)) (Dbl.dec 3 1)]) := by
  decide +kernel

example := C79_volumes exThirds_good.validData (f2c := [0, 0, 1]) rfl (N := 2) ⟨by decide, by decide⟩ (-100)

example := C79_total exThirds_good.validData (f2c := [0, 0, 1]) rfl (N := 2) (by
  intro k
  constructor
  · intro h; simp at h; omega
  · intro h; have : k = 0 ∨ k = 1 := by omega
    rcases this with rfl | rfl <;> decide) (-100)

example := C79_levels (P := exPlatform) (z := -100) (by decide) (above := False) _ exThirds_good (fun h => h.elim)
  (fun s hs g' o' n' _ _ _ => exPairs_known s hs g' o' n') ⟨[], [], []⟩

theorem dbl_positive {x : Dbl} (h : 0 < x.code) : 0 < x.value := by
  rw [← Dbl.value_zero, Dbl.value_lt]; exact h

example := C79_positive (P := exPlatform) (z := -100) (by decide) (above := False) _ exThirds_good (fun h => h.elim)
  (fun s hs g' o' n' _ _ _ => exPairs_known s hs g' o' n') ⟨[], [], []⟩
  (fun x hx => dbl_positive ((by decide : ∀ x ∈ exThirds.volumes, 0 < x.code) x hx))
  (fun x hx => dbl_positive ((by decide : ∀ x ∈ exThirds.weights, 0 < x.code) x hx))

/-- quarters -/
example := C79_exact (P := exPlatform) (z := -100) (by decide) (above := False) _ exQuarters_good (fun h => h.elim)
  (fun s hs g' o' n' _ _ _ => exPairs_known s hs g' o' n') ⟨[], [], []⟩ (e := -2) (by decide) (by decide)
  (by
    intro x hx
    have h1 : Dbl.dec 25 2 = ⟨4598175219545276416⟩ := by decide
    have h2 : Dbl.dec 75 2 = ⟨4604930618986332160⟩ := by decide
    have h3 : Dbl.dec 50 2 = ⟨4602678819172646912⟩ := by decide
    simp only [exQuarters, h1, h2, h3, List.mem_cons, List.not_mem_nil, or_false] at hx
    rcases hx with rfl | rfl | rfl
    · exact ⟨by decide, 1, by norm_num [Dbl.value, Dbl.valueN, Dbl.mant, Dbl.expo]⟩
    · exact ⟨by decide, 3, by norm_num [Dbl.value, Dbl.valueN, Dbl.mant, Dbl.expo]⟩
    · exact ⟨by decide, 2, by norm_num [Dbl.value, Dbl.valueN, Dbl.mant, Dbl.expo]⟩)
  (by
    have h1 : Dbl.dec 25 2 = ⟨4598175219545276416⟩ := by decide
    have h2 : Dbl.dec 75 2 = ⟨4604930618986332160⟩ := by decide
    have h3 : Dbl.dec 50 2 = ⟨4602678819172646912⟩ := by decide
    have h4 : entriesAt exQuarters.volumes (List.range 3) = [⟨4598175219545276416⟩, ⟨4604930618986332160⟩, ⟨4602678819172646912⟩] := by
      unfold exQuarters; rw [h1, h2, h3]; rfl
    unfold exactSize
    rw [h4]
    norm_num [Dbl.value, Dbl.valueN, Dbl.mant, Dbl.expo])

/-- **C79 is not exact**: sums of doubles depend on the order of the cells.  Three cells of volumes 0.1, 0.2, 0.3 in one coarse cell, and the
same cells numbered the other way round. -/
theorem C79_order_matters :
    ∃ g g' : MeshData Dbl, GoodMesh g 3 ∧ GoodMesh g' 3 ∧ g'.volumes = g.volumes.reverse ∧
      ∃ out out', buildCoarseGraph (-100) [0, 0, 0] g = .ok out ∧ buildCoarseGraph (-100) [0, 0, 0] g' = .ok out' ∧
        out.volumes ≠ out'.volumes := by
  refine ⟨exThirds, { exThirds with
    volumes := exThirds.volumes.reverse }, exThirds_good, { exThirds_good with volumes := rfl }, rfl, _, _, rfl, rfl, by decide +kernel⟩

/-- addition of doubles is not associative -/
theorem dbl_not_exact : ¬ CommAdd Dbl := by
  intro h
  exact absurd (h.assoc (Dbl.dec 1 1) (Dbl.dec 2 1) (Dbl.dec 3 1)) (by decide)

end CoMMA
