import Verif.Props.Hierarchy
/-! # C78: with correction each level has at most half as many cells

Also the bound of C58 on the number of coarse cells, for calls with lines. -/

set_option linter.unusedSectionVars false

namespace CoMMA

variable {W : Type} [Num W]

theorem counts_le_length {f : List Nat} {N m : Nat} (hm : ∀ k, k < N → m ≤ f.count k) : N * m ≤ f.length := by
  induction N generalizing f with
  | zero => simp
  | succ N ih =>
    have h1 := ih (f := f.filter (fun k => !(k == N))) (by
      intro k hk
      have h2 := hm k (by omega)
      rw [List.count_filter (by simp; omega)]
      exact h2)
    have h2 : f.length = f.count N + (f.filter (fun k => !(k == N))).length := by
      rw [List.length_eq_length_filter_add (fun k => k == N)]
      congr 1
      rw [List.count_eq_length_filter]
    have h3 := hm N (by omega)
    rw [h2, Nat.add_mul]
    omega

/-- **C78** On a connected mesh with at least two cells, a call without lines that corrects single cells
gives at most half as many coarse cells as there are cells: each has two cells or more. -/
theorem C78_halves {P : Platform} {a : Args W} {o : Outs} {n : Nat} (hm : ValidMesh a n) (hp : ValidParams P a)
    (hcor : a.correction = true) (hs : CorrectsSingletons a) (hoff : WithoutLines a o)
    (hc : ConnectedMesh n a.rowPtr a.colInd) (hn : 1 < n) :
    ∃ f N, agglomerateOneLevel P a o = (⟨f, o.linesIdx, o.lines⟩, .ok ()) ∧ (∀ k, k ∈ f ↔ k < N) ∧
      (∀ k, k < N → 2 ≤ f.count k) ∧ 2 * N ≤ n := by
  obtain ⟨f, h1, h2⟩ := C01_total hm hp hs hoff
  obtain ⟨N, h3⟩ := C02_contiguous hm hp hs hoff
  have h4 := @C09_no_singletons W _ P a o n hm hp hcor hs hoff
  simp only [h1] at h3 h4
  have h5 : ∀ k, k < N → 2 ≤ f.count k := by
    intro k hk
    have hk' := (h3 k).2 hk
    have := List.count_pos_iff.2 hk'
    by_contra hlt
    obtain ⟨x, hx⟩ := List.mem_iff_getElem?.1 hk'
    obtain ⟨y, hyx, hadj⟩ := hc.other hn (i := x) (by rw [← h2]; exact (List.getElem?_eq_some_iff.1 hx).1)
    exact hyx (h4 hx (by omega) y hadj)
  have := counts_le_length h5
  exact ⟨f, N, h1, h3, h5, by omega⟩

/-- settings of a level without lines and with correction of single cells -/
structure HalvingCall (P : Platform) (a : Args W) (o : Outs) : Prop where
  params : ValidParams P a
  on : a.correction = true
  corr : CorrectsSingletons a
  off : WithoutLines a o

/-- **C78** After `k` levels a connected mesh of `n` cells has one cell or at most `n / 2 ^ k` cells; hence it has one
cell as soon as `2 ^ (k + 1)` exceeds `n`. -/
theorem C78_levels {P : Platform} {z : Int} (hz : z ≤ 0) (hirr : Num.lt (Num.lmin : W) Num.lmin = false)
    {above : Prop} (levels : List (MeshData W → Outs → Args W)) {n : Nat} {g : MeshData W} (hg : GoodMesh g n)
    (hab : above → PrioritiesAbove g)
    (hl : ∀ s ∈ levels, ∀ g' o' n', GoodMesh g' n' → n' ≤ n → (above → PrioritiesAbove g') →
      HalvingCall P ((s g' o').onMesh g') o') (o : Outs) :
    ∃ maps gN N, runLevels P z levels g o = .ok (maps, gN) ∧ GoodMesh gN N ∧ (N = 1 ∨ N * 2 ^ levels.length ≤ n) ∧
      (n < 2 ^ (levels.length + 1) → N = 1) := by
  have key : ∃ maps gN N, runLevels P z levels g o = .ok (maps, gN) ∧ GoodMesh gN N ∧ (N = 1 ∨ N * 2 ^ levels.length ≤ n) := by
    induction levels generalizing n g o with
    | nil => exact ⟨[], g, n, rfl, hg, Or.inr (by simp)⟩
    | cons s r ih =>
      have hk := hl s (by simp) g o n hg (Nat.le_refl n) hab
      obtain ⟨out, g', N, h⟩ := level_made hz hg ⟨hk.params, hk.corr, Or.inl hk.off⟩
      have hle := h.le
      obtain ⟨maps, gN, M, h8, h9, h10⟩ := ih h.good (fun hh => h.above hirr (hab hh))
        (fun s hs g' o' n' hg' hn' => hl s (List.mem_cons_of_mem _ hs) g' o' n' hg' (by omega)) out
      refine ⟨out.fcToCc :: maps, gN, M, ?_, h9, ?_⟩
      · unfold runLevels
        rw [h.call]
        simp only [h.build, h8]
      · rcases h10 with h10 | h10
        · exact Or.inl h10
        by_cases hn : 1 < n
        · obtain ⟨f, N', e1, e2, _, e3⟩ := C78_halves (hg.validMesh (s g o)) hk.params hk.on hk.corr hk.off hg.connected hn
          rw [h.call] at e1
          cases e1
          have hN : N = N' := by
            have k1 := (h.all N).symm.trans (e2 N)
            have k2 := (h.all N').symm.trans (e2 N')
            omega
          right
          rw [List.length_cons, Nat.pow_succ]
          have : M * (2 ^ r.length * 2) = 2 * (M * 2 ^ r.length) := by
            rw [Nat.mul_comm (2 ^ r.length) 2, Nat.mul_left_comm]
          omega
        · have h1 := h9.pos
          have h2 : 1 ≤ 2 ^ r.length := Nat.one_le_two_pow
          have h3 : M * 1 ≤ M * 2 ^ r.length := Nat.mul_le_mul_left M h2
          left; omega
  obtain ⟨maps, gN, N, h1, h2, h3⟩ := key
  refine ⟨maps, gN, N, h1, h2, h3, fun hn => ?_⟩
  rcases h3 with h3 | h3
  · exact h3
  · have := h2.pos
    by_contra hne
    have h4 : 2 * 2 ^ levels.length ≤ N * 2 ^ levels.length := Nat.mul_le_mul_right _ (by omega)
    rw [Nat.pow_succ] at hn
    omega

/-- at most three cells in a coarse cell of an exported line -/
theorem CoarsensLines.small {a : Args W} {fls : List (List Nat)} {out : Outs} (h : CoarsensLines a fls out)
    {k : Nat} (hk : k ∈ out.lines) : out.fcToCc.count k ≤ 3 := by
  obtain ⟨cls, gss, h1, h2, h3⟩ := h
  have hk' : k ∈ cls.flatten := by
    rcases h1 with ⟨_, _, h1⟩ | ⟨_, _, h1⟩
    · rw [h1] at hk; cases hk
    · rw [← h1]; exact hk
  obtain ⟨cl, hcl, hkc⟩ := List.mem_flatten.1 hk'
  obtain ⟨groups, hg, hgc⟩ := forall₂_mem_right h3 hcl
  obtain ⟨line, hl, l, hor, hpa⟩ := forall₂_mem_right h2 hg
  obtain ⟨grp, hgr, hd⟩ := forall₂_mem_right hgc hkc
  have hlen : grp.length ≤ 3 := by rcases hpa.size grp hgr with h4 | ⟨h4, _⟩ <;> omega
  refine Nat.le_trans ?_ hlen
  generalize out.fcToCc = f at hd
  -- the positions of `k` in `f` are distinct cells of the group
  rw [count_eq_filter]
  refine (List.subperm_of_subset (List.nodup_range.filter _) (fun i hi => ?_)).length_le
  rw [List.mem_filter] at hi
  exact (hd i).1 (by simpa using hi.2)

/-- without correction no coarse cell has more cells than the larger of `max_card` and 3 -/
theorem known_sizes {P : Platform} {a : Args W} {o : Outs} {n : Nat} (hm : ValidMesh a n) (hp : ValidParams P a)
    (hcor : a.correction = false) (hk : KnownCall P a o n) :
    ∃ out, agglomerateOneLevel P a o = (out, .ok ()) ∧ out.fcToCc.length = n ∧ Contiguous out.fcToCc ∧
      ∀ k, (out.fcToCc.count k : Int) ≤ max a.maxCard 3 := by
  have use : ∀ {fls : List (List Nat)} {out : Outs}, AnisoResult a n fls out → out.fcToCc.length = n ∧ Contiguous out.fcToCc ∧
      ∀ k, (out.fcToCc.count k : Int) ≤ max a.maxCard 3 := by
    intro fls out h
    refine ⟨h.len, h.contiguous, fun k => ?_⟩
    by_cases hkl : k ∈ out.lines
    · have := h.lines.small hkl
      omega
    · have := h.max hcor k hkl
      omega
  rcases hk.lines with hoff | ⟨hb, hno⟩ | ⟨ls, hb, hno⟩
  · obtain ⟨f, h1, h2⟩ := C01_total hm hp hk.corr hoff
    have h3 := C02_contiguous hm hp hk.corr hoff
    have h4 := C03_max_card hm hp hcor hoff
    rw [h1] at h3 h4
    exact ⟨_, h1, h2, h3, fun k => by have := h4 k; simp only at this ⊢; omega⟩
  · obtain ⟨fls, h1, _⟩ := fineLines_build (P := P) (o := o) hm hb
    obtain ⟨c, k, p, cls, gss, h2⟩ := built_start hm hp hb h1 (hno fls h1)
    obtain ⟨out, h6, h7⟩ := h2.result hm hp hk.corr
    exact ⟨out, h6, use h7⟩
  · obtain ⟨out, h6, h7⟩ := C40_given hm hp hk.corr hb hno
    exact ⟨out, h6, use h7⟩

/-- **C58** (calls with lines) Without correction a call with lines gives no fewer coarse cells than the number of cells over
the larger of `max_card` and 3. -/
theorem C58_ratio_lines {P : Platform} {a : Args W} {o : Outs} {n : Nat} (hm : ValidMesh a n) (hp : ValidParams P a)
    (hcor : a.correction = false) (hk : KnownCall P a o n) :
    ∃ out N, agglomerateOneLevel P a o = (out, .ok ()) ∧ (∀ k, k ∈ out.fcToCc ↔ k < N) ∧ (n : Int) ≤ N * max a.maxCard 3 := by
  obtain ⟨out, h1, h2, ⟨N, h3⟩, h4⟩ := known_sizes hm hp hcor hk
  refine ⟨out, N, h1, h3, ?_⟩
  have := length_le_counts (f := out.fcToCc) (N := N) (m := (max a.maxCard 3).toNat) (fun k hk => (h3 k).1 hk) (fun k => by
    have := h4 k; omega)
  rw [h2] at this
  have e4 : ((N * (max a.maxCard 3).toNat : Nat) : Int) = N * max a.maxCard 3 := by
    rw [Int.natCast_mul, Int.toNat_of_nonneg (by omega)]
  rw [← e4]
  exact_mod_cast this

/-! ## Concrete cases -/

/-- the settings of `exLevels` -/
theorem exLevels_halving (s : MeshData Int → Outs → Args Int) (hs : s ∈ exLevels) (g' : MeshData Int) (o' : Outs) :
    HalvingCall exPlatform ((s g' o').onMesh g') o' := by
  obtain ⟨h1, h2, h3⟩ := exLevels_ok s hs g' o'
  have : s = fun _ _ => exArgs3 := by simpa [exLevels] using hs
  subst this
  exact ⟨h1, rfl, h2, h3⟩

example := C78_halves (P := exPlatform) (a := exArgs3.onMesh exLine3) (o := ⟨[], [], []⟩) (exLine3_good.validMesh _)
  (exLevels_halving (fun _ _ => exArgs3) (by simp [exLevels]) exLine3 ⟨[], [], []⟩).params rfl (fun _ => Or.inl rfl) (Or.inl rfl)
  exLine3_good.connected (by decide)

/-- three cells, two levels: one cell -/
example := C78_levels (P := exPlatform) (z := -100) (by decide) (by decide) (above := False) exLevels exLine3_good
  (fun h => h.elim) (fun s hs g' o' _ _ _ _ => exLevels_halving s hs g' o') ⟨[], [], []⟩

example := C58_ratio_lines (P := exPlatform) (a := { exGiven with correction := false }) (o := exGivenOuts) (n := 3)
  { exGiven_valid with } { exGiven_params with } rfl ⟨{ exGiven_params with }, (fun h => by cases h),
    Or.inr (Or.inr ⟨[[0, 1], [2]], { exGiven_lines with }, by intro l _ m h; cases h⟩)⟩

/-- **C78 needs the correction, and fails with lines**: three cells in a row; without correction two
coarse cells; two coarse cells, too, if two of the cells are a line, which the single cell may not join. -/
theorem C78_counterexamples :
    (∃ a : Args Int, ValidMesh a 3 ∧ ConnectedMesh 3 a.rowPtr a.colInd ∧ ValidParams exPlatform a ∧ a.correction = false ∧
      WithoutLines a ⟨[], [], []⟩ ∧ agglomerateOneLevel exPlatform a ⟨[], [], []⟩ = (⟨[0, 0, 1], [], []⟩, .ok ())) ∧
    ∃ (a : Args Int) (o : Outs) (ls : List (List Nat)), ValidMesh a 3 ∧ ConnectedMesh 3 a.rowPtr a.colInd ∧ ValidParams exPlatform a ∧
      a.correction = true ∧ CorrectsSingletons a ∧ GivesLines a o 3 ls ∧
      ∃ idx lines, agglomerateOneLevel exPlatform a o = (⟨[0, 0, 1], idx, lines⟩, .ok ()) := by
  refine ⟨⟨{ exArgs3 with correction := false }, ?_, exLine3_good.connected, ?_, rfl, Or.inl rfl, by decide +kernel⟩,
    exGiven, exGivenOuts, [[0, 1], [2]], exGiven_valid, exLine3_good.connected, exGiven_params, rfl, fun _ => Or.inl rfl, exGiven_lines,
    [0, 1], [0], by decide +kernel⟩
  · exact { exGiven_valid with bnd := rfl }
  · exact { exGiven_params with onePoint := by rintro (h | h) <;> cases h }

end CoMMA
