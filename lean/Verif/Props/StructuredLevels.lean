import Verif.Props.StructuredLarger
import Verif.Props.Levels
/-! # C93: several levels of a structured mesh -/

set_option linter.unusedSectionVars false

namespace CoMMA

variable {W : Type} [Num W] {D n : Nat} {ext : Nat → Nat} {pos : Nat → Nat → Nat}

/-- a call without lines with the settings that make blocks (C91, C92) -/
structure BlockCall (P : Platform) (D : Nat) (a : Args W) (o : Outs) : Prop where
  params : ValidParams P a
  off : WithoutLines a o
  goal : a.goalCard = (2 ^ D : Nat)
  settings : (D = 1 ∧ a.maxCard = 2) ∨ (D = 2 ∧ a.maxCard = 4) ∨ (D = 2 ∧ a.maxCard ≤ 8 ∧ a.fcIter = 1) ∨
    (D = 3 ∧ a.dim = 3 ∧ a.maxCard ≤ 166 ∧ a.nbh = .extended ∧ a.fcIter = 1)

theorem BlockCall.blocks {P : Platform} {a : Args W} {o : Outs} (h : BlockCall P D a o) (hm : ValidMesh a n) (hW : LawfulLt W)
    (hu : UniqueRows a.rowPtr a.colInd) (hg : IsGrid D ext n pos (Adj a.rowPtr a.colInd)) (he : ∀ ax < D, ext ax % 2 = 0)
    (hb : ∀ c < n, a.nBnd[c]? = some (sidesOut D ext (pos c))) :
    ∃ f : List Nat, agglomerateOneLevel P a o = (⟨f, o.linesIdx, o.lines⟩, .ok ()) ∧ f.length = n ∧ Contiguous f ∧
      ∀ i < n, ∀ j < n, (f[i]? = f[j]? ↔ SameBlock D (pos i) (pos j)) := by
  have h2 := h.goal
  rcases h.settings with ⟨hD, h3⟩ | ⟨hD, h3⟩ | ⟨hD, h3, h5⟩ | ⟨hD, h1, h3, h4, h5⟩
  · subst hD
    exact C91_row hm h.params hW hu h.off h2 h3 hg he hb
  · subst hD
    exact C91_blocks hm h.params hW hu h.off h2 h3 hg he hb
  · subst hD
    exact C91_larger hm h.params hW hu h.off h2 h3 h5 hg he hb
  · subst hD
    exact C92_larger hm h.params hW hu h.off h1 h2 h3 h4 h5 hg he hb

/-- coordinates of coarse cell `c`: those of one of its cells, halved -/
def coarsePos (f : List Nat) (pos : Nat → Nat → Nat) (c ax : Nat) : Nat := pos (f.idxOf c) ax / 2

theorem coarsePos_eq {f : List Nat} (hf : f.length = n)
    (hs : ∀ i < n, ∀ j < n, (f[i]? = f[j]? ↔ SameBlock D (pos i) (pos j))) {i c : Nat} (hi : f[i]? = some c) :
    ∀ ax < D, coarsePos f pos c ax = pos i ax / 2 := by
  have hc : c ∈ f := List.mem_of_getElem? hi
  have h1 : f.idxOf c < f.length := List.idxOf_lt_length_of_mem hc
  have h2 : f[f.idxOf c]? = some c := by rw [List.getElem?_eq_getElem h1, List.getElem_idxOf]
  have h3 : i < f.length := (List.getElem?_eq_some_iff.1 hi).1
  exact (hs _ (by omega) i (by omega)).1 (by rw [h2, hi])

/-- the blocks of a grid form a grid -/
theorem IsGrid.coarse {R R' : Nat → Nat → Prop} (hg : IsGrid D ext n pos R) (he : ∀ ax < D, ext ax % 2 = 0) {f : List Nat} {N : Nat}
    (hf : f.length = n) (hN : ∀ k, k ∈ f ↔ k < N)
    (hs : ∀ i < n, ∀ j < n, (f[i]? = f[j]? ↔ SameBlock D (pos i) (pos j)))
    (hR : ∀ k l, R' k l ↔ k ≠ l ∧ ∃ i j : Nat, f[i]? = some k ∧ f[j]? = some l ∧ R i j) :
    IsGrid D (fun ax => ext ax / 2) N (coarsePos f pos) R' := by
  have hex : ∀ c < N, ∃ i < n, f[i]? = some c := by
    intro c hc
    obtain ⟨i, hi⟩ := List.mem_iff_getElem?.1 ((hN c).2 hc)
    exact ⟨i, by rw [← hf]; exact (List.getElem?_eq_some_iff.1 hi).1, hi⟩
  have hlt : ∀ i c : Nat, f[i]? = some c → i < n ∧ c < N := fun i c h =>
    ⟨by rw [← hf]; exact (List.getElem?_eq_some_iff.1 h).1, (hN c).1 (List.mem_of_getElem? h)⟩
  refine ⟨?_, ?_, ?_, ?_⟩
  · intro c hc ax hax
    obtain ⟨i, hi, hic⟩ := hex c hc
    rw [coarsePos_eq hf hs hic ax hax]
    have := hg.range i hi ax hax
    have := he ax hax
    omega
  · intro c hc c' hc' h
    obtain ⟨i, hi, hic⟩ := hex c hc
    obtain ⟨i', hi', hic'⟩ := hex c' hc'
    have := (hs i hi i' hi').2 (fun ax hax => by
      have := h ax hax
      rwa [coarsePos_eq hf hs hic ax hax, coarsePos_eq hf hs hic' ax hax] at this)
    rw [hic, hic'] at this
    exact Option.some.inj this
  · intro v hv
    obtain ⟨i, hi, hp⟩ := hg.surj (fun ax => 2 * v ax) (fun ax hax => by have := hv ax hax; have := he ax hax; omega)
    have hi' : i < f.length := by omega
    refine ⟨f[i], (hN _).1 (List.getElem_mem hi'), fun ax hax => ?_⟩
    rw [coarsePos_eq hf hs (List.getElem?_eq_getElem hi') ax hax, hp ax hax]
    omega
  · intro c c'
    rw [hR]
    constructor
    · rintro ⟨hne, i, j, hi, hj, hij⟩
      refine ⟨(hlt i c hi).2, (hlt j c' hj).2, ?_⟩
      obtain ⟨h1, h2, ax, hax, hstep, hrest⟩ := (hg.adj i j).1 hij
      have hp := coarsePos_eq hf hs hi
      have hp' := coarsePos_eq hf hs hj
      have hd : pos i ax / 2 ≠ pos j ax / 2 := by
        intro hd
        have : f[i]? = f[j]? := (hs i h1 j h2).2 (fun b hb => by
          by_cases hba : b = ax
          · rw [hba]; exact hd
          · rw [hrest b hb hba])
        rw [hi, hj] at this
        exact hne (Option.some.inj this)
      refine ⟨ax, hax, ?_, fun b hb hba => ?_⟩
      · rw [hp ax hax, hp' ax hax]
        omega
      · rw [hp b hb, hp' b hb, hrest b hb hba]
    · rintro ⟨hc, hc', ax, hax, hstep, hrest⟩
      obtain ⟨i, hi, hic⟩ := hex c hc
      obtain ⟨j, hj, hjc⟩ := hex c' hc'
      have hp := coarsePos_eq hf hs hic
      have hp' := coarsePos_eq hf hs hjc
      rw [hp ax hax, hp' ax hax] at hstep
      have key : ∀ k < n, ∀ t < 2, ∃ m < n, f[m]? = f[k]? ∧ pos m ax = 2 * (pos k ax / 2) + t ∧
          ∀ b < D, b ≠ ax → pos m b = 2 * (pos k b / 2) := by
        intro k hk t ht
        obtain ⟨m, hm, hp⟩ := hg.surj (fun b => if b = ax then 2 * (pos k ax / 2) + t else 2 * (pos k b / 2)) (fun b hb => by
          have h1 := hg.range k hk b hb
          have h2 := he b hb
          by_cases hba : b = ax
          · subst hba; simp only [if_true]; omega
          · simp only [if_neg hba]; omega)
        refine ⟨m, hm, (hs m hm k hk).2 (fun b hb => ?_), ?_, fun b hb hba => ?_⟩
        · rw [hp b hb]
          by_cases hba : b = ax
          · subst hba; simp only [if_true]; omega
          · simp only [if_neg hba]; omega
        · rw [hp ax hax]; simp
        · rw [hp b hb]; simp [hba]
      have hhalf : ∀ b < D, b ≠ ax → pos i b / 2 = pos j b / 2 := by
        intro b hb hba
        have := hrest b hb hba
        rwa [hp b hb, hp' b hb] at this
      refine ⟨fun h => ?_, ?_⟩
      · subst h
        have := (hs i hi j hj).1 (by rw [hic, hjc]) ax hax
        omega
      · rcases hstep with hstep | hstep
        · obtain ⟨m, hm, e1, e2, e3⟩ := key i hi 1 (by omega)
          obtain ⟨m', hm', e1', e2', e3'⟩ := key j hj 0 (by omega)
          refine ⟨m, m', by rw [e1, hic], by rw [e1', hjc], (hg.adj m m').2 ⟨hm, hm', ax, hax, ?_, fun b hb hba => ?_⟩⟩
          · omega
          · rw [e3 b hb hba, e3' b hb hba, hhalf b hb hba]
        · obtain ⟨m, hm, e1, e2, e3⟩ := key i hi 0 (by omega)
          obtain ⟨m', hm', e1', e2', e3'⟩ := key j hj 1 (by omega)
          refine ⟨m, m', by rw [e1, hic], by rw [e1', hjc], (hg.adj m m').2 ⟨hm, hm', ax, hax, ?_, fun b hb hba => ?_⟩⟩
          · omega
          · rw [e3 b hb hba, e3' b hb hba, hhalf b hb hba]

/-- the number of sides of a block on the boundary is the largest number of its cells, if there are at least two blocks
along each axis -/
theorem sidesOut_coarse {R : Nat → Nat → Prop} (hg : IsGrid D ext n pos R) (he : ∀ ax < D, ext ax % 4 = 0) {i : Nat} (hi : i < n) :
    (∀ j < n, SameBlock D (pos j) (pos i) → sidesOut D ext (pos j) ≤ sidesOut D (fun ax => ext ax / 2) (fun ax => pos i ax / 2)) ∧
      ∃ j < n, SameBlock D (pos j) (pos i) ∧
        sidesOut D ext (pos j) = sidesOut D (fun ax => ext ax / 2) (fun ax => pos i ax / 2) := by
  constructor
  · intro j hj hs
    unfold sidesOut
    refine Finset.sum_le_sum fun ax hax => ?_
    have hax := Finset.mem_range.1 hax
    have h1 := hs ax hax
    have h2 := he ax hax
    have h3 := hg.range i hi ax hax
    have h4 := hg.range j hj ax hax
    dsimp only
    split_ifs <;> omega
  · obtain ⟨j, hj, hp⟩ := hg.surj (fun ax => if pos i ax / 2 = 0 then 0 else if pos i ax / 2 + 1 = ext ax / 2 then ext ax - 1 else pos i ax)
      (fun ax hax => by
        have h2 := he ax hax
        have h3 := hg.range i hi ax hax
        split_ifs <;> omega)
    refine ⟨j, hj, fun ax hax => ?_, ?_⟩
    · have h2 := he ax hax
      have h3 := hg.range i hi ax hax
      rw [hp ax hax]
      split_ifs <;> omega
    · unfold sidesOut
      refine Finset.sum_congr rfl fun ax hax => ?_
      have hax := Finset.mem_range.1 hax
      have h2 := he ax hax
      have h3 := hg.range i hi ax hax
      rw [hp ax hax]
      dsimp only
      split_ifs <;> omega

theorem sidesOut_congr {e u e' u' : Nat → Nat} (h1 : ∀ ax < D, e ax = e' ax) (h2 : ∀ ax < D, u ax = u' ax) :
    sidesOut D e u = sidesOut D e' u' := by
  unfold sidesOut
  refine Finset.sum_congr rfl fun ax hax => ?_
  have hax := Finset.mem_range.1 hax
  rw [h1 ax hax, h2 ax hax]

/-- **C93** Several levels of a structured mesh whose numbers of cells along the axes are multiples of `2 ^ k`, `k` the number of
levels, with the settings of C91 or C92 at each level (the others may change from level to level): the
calls return, the coarsest mesh is the structured mesh with `2 ^ k` times fewer cells along each axis, and each finest
cell ends up in the coarsest cell at its own coordinates divided by `2 ^ k`. -/
theorem C93_levels {P : Platform} {z : Int} (hz : z ≤ 0) (hW : LawfulLt W) {above : Prop}
    (levels : List (MeshData W → Outs → Args W)) {g : MeshData W} (hg : GoodMesh g n) (hu : UniqueRows g.adjIdx g.adj)
    (hab : above → PrioritiesAbove g)
    (hgrid : IsGrid D ext n pos (Adj g.adjIdx g.adj)) (he : ∀ ax < D, ext ax % 2 ^ levels.length = 0)
    (hb : ∀ c < n, g.nBnd[c]? = some (sidesOut D ext (pos c) : Int))
    (hl : ∀ s ∈ levels, ∀ g' o' n', GoodMesh g' n' → n' ≤ n → (above → PrioritiesAbove g') →
      BlockCall P D ((s g' o').onMesh g') o') (o : Outs) :
    ∃ maps gN N posN, runLevels P z levels g o = .ok (maps, gN) ∧ GoodMesh gN N ∧
      IsGrid D (fun ax => ext ax / 2 ^ levels.length) N posN (Adj gN.adjIdx gN.adj) ∧
      ∀ i < n, ∃ c < N, composeMaps maps i = some c ∧ ∀ ax < D, posN c ax = pos i ax / 2 ^ levels.length := by
  have main : ∀ (levels : List (MeshData W → Outs → Args W)) {n : Nat} {ext : Nat → Nat} {pos : Nat → Nat → Nat} {g : MeshData W},
      GoodMesh g n → UniqueRows g.adjIdx g.adj → (above → PrioritiesAbove g) →
      IsGrid D ext n pos (Adj g.adjIdx g.adj) → (∀ ax < D, ext ax % 2 ^ levels.length = 0) →
      (levels ≠ [] → ∀ c < n, g.nBnd[c]? = some (sidesOut D ext (pos c) : Int)) →
      (∀ s ∈ levels, ∀ g' o' n', GoodMesh g' n' → n' ≤ n → (above → PrioritiesAbove g') →
        BlockCall P D ((s g' o').onMesh g') o') → ∀ o : Outs,
      ∃ maps gN N posN, runLevels P z levels g o = .ok (maps, gN) ∧ GoodMesh gN N ∧
        IsGrid D (fun ax => ext ax / 2 ^ levels.length) N posN (Adj gN.adjIdx gN.adj) ∧
        ∀ i < n, ∃ c < N, composeMaps maps i = some c ∧ ∀ ax < D, posN c ax = pos i ax / 2 ^ levels.length := by
    intro levels
    induction levels with
    | nil =>
      intro n ext pos g hg _ _ hgrid _ _ _ o
      exact ⟨[], g, n, pos, rfl, hg, by simpa using hgrid, fun i hi => ⟨i, hi, rfl, by simp⟩⟩
    | cons s r ih =>
      intro n ext pos g hg hu hab hgrid he hb hl o
      simp only [List.length_cons, Nat.pow_succ] at he
      have he2 : ∀ ax < D, ext ax % 2 = 0 := fun ax hax => by
        have := he ax hax
        rw [Nat.mul_comm] at this
        have h1 := Nat.mod_mul_right_mod (ext ax) 2 (2 ^ r.length)
        rw [this] at h1
        omega
      have hcall := hl s (by simp) g o n hg (Nat.le_refl n) hab
      obtain ⟨f, h1, h2, ⟨N, hN⟩, h3⟩ := hcall.blocks (hg.validMesh _) hW hu hgrid he2 (by
        intro c hc
        simp only [Args.onMesh, List.getElem?_map, hb (by simp) c hc, Option.map_some, Int.toNat_natCast])
      obtain ⟨g', h4, h5, h6, h7⟩ := C18_coarse_mesh hg h2 hN hz
      have hNpos := h5.pos
      have hcc : CoarseCount f N := ⟨fun k hk => (hN k).1 hk, (hN _).2 (by omega)⟩
      obtain ⟨g2, e2, hcrs, hsorted, _, hadj, _⟩ := C16_adjacency hg.validData h2 hcc z
      rw [h4] at e2; cases e2
      obtain ⟨g3, e3, _, hbnd⟩ := C43_boundary hg.validData h2 hcc (z := z) (fun b hb => by have := hg.bndPos b hb; omega)
      rw [h4] at e3; cases e3
      have hgrid' := hgrid.coarse he2 h2 hN h3 hadj
      have he' : ∀ ax < D, ext ax / 2 % 2 ^ r.length = 0 := by
        intro ax hax
        have := he ax hax
        rw [Nat.mul_comm, Nat.mod_mul] at this
        have h8 := he2 ax hax
        omega
      have hb' : r ≠ [] → ∀ c < N, g'.nBnd[c]? = some (sidesOut D (fun ax => ext ax / 2) (coarsePos f pos c) : Int) := by
        intro hr c hc
        have he4 : ∀ ax < D, ext ax % 4 = 0 := by
          intro ax hax
          have h8 := he' ax hax
          have h9 := he2 ax hax
          obtain ⟨q, hq⟩ : ∃ q, r.length = q + 1 := ⟨r.length - 1, by have := List.length_pos_of_ne_nil hr; omega⟩
          rw [hq, Nat.pow_succ, Nat.mul_comm] at h8
          have h10 := Nat.mod_mul_right_mod (ext ax / 2) 2 (2 ^ q)
          rw [h8] at h10
          omega
        obtain ⟨b, hb1, hb2, hb3⟩ := hbnd c ((hN c).2 hc)
        obtain ⟨i, hi⟩ := List.mem_iff_getElem?.1 ((hN c).2 hc)
        have hin : i < n := by rw [← h2]; exact (List.getElem?_eq_some_iff.1 hi).1
        obtain ⟨hup, j, hj, hsame, hsides⟩ := sidesOut_coarse hgrid he4 hin
        have hcp := sidesOut_congr (D := D) (e := fun ax => ext ax / 2) (fun _ _ => rfl) (coarsePos_eq h2 h3 hi)
        rw [hb1, hcp]
        congr 1
        have hmem : ∀ x : Int, x ∈ entriesAt g.nBnd (cellsOf f c) ↔ ∃ k < n, SameBlock D (pos k) (pos i) ∧ x = (sidesOut D ext (pos k) : Int) := by
          intro x
          unfold entriesAt
          rw [List.mem_filterMap]
          constructor
          · rintro ⟨k, hk, hx⟩
            have hk := mem_cellsOf.1 hk
            have hkn : k < n := by rw [← h2]; exact (List.getElem?_eq_some_iff.1 hk).1
            rw [hb (by simp) k hkn] at hx
            exact ⟨k, hkn, (h3 k hkn i hin).1 (by rw [hk, hi]), (Option.some.inj hx).symm⟩
          · rintro ⟨k, hk, hs, rfl⟩
            exact ⟨k, mem_cellsOf.2 (by rw [(h3 k hk i hin).2 hs, hi]), hb (by simp) k hk⟩
        obtain ⟨k, hk, hks, hkb⟩ := (hmem b).1 hb2
        have h11 := hup k hk hks
        have h12 := hb3 _ ((hmem _).2 ⟨j, hj, hsame, rfl⟩)
        omega
      have hu' : UniqueRows g'.adjIdx g'.adj := by
        obtain ⟨g4, _, _, e4, _, hh, _⟩ := hcc.exists_ok hg.validData h2 z
        rw [h4] at e4; cases e4
        exact hh.uniq
      obtain ⟨maps, gN, M, posN, h8, h9, h10, h11⟩ := ih h5 hu' (fun h => h7 (hW.irrefl _) (hab h)) hgrid' he' hb'
        (fun s hs g' o' n' hg' hn' => hl s (List.mem_cons_of_mem _ hs) g' o' n' hg' (by omega)) ⟨f, o.linesIdx, o.lines⟩
      refine ⟨f :: maps, gN, M, posN, ?_, h9, ?_, ?_⟩
      · unfold runLevels
        rw [h1]
        simp only [h4, h8]
      · simp only [List.length_cons, Nat.pow_succ, Nat.mul_comm _ 2, ← Nat.div_div_eq_div_mul]
        exact h10
      · intro i hi
        have hi' : i < f.length := by omega
        obtain ⟨c, hc, hm, hp⟩ := h11 f[i] ((hN _).1 (List.getElem_mem hi'))
        refine ⟨c, hc, by simp [composeMaps, List.getElem?_eq_getElem hi', hm], fun ax hax => ?_⟩
        rw [hp ax hax, coarsePos_eq h2 h3 (List.getElem?_eq_getElem hi') ax hax, Nat.div_div_eq_div_mul, List.length_cons,
          Nat.pow_succ, Nat.mul_comm 2]
  exact main levels hg hu hab hgrid he (fun _ => hb) hl o

/-- **C93** (the blocks) Two finest cells end up in the same coarsest cell if and only if they are in the same block of
`2 ^ k` cells along each axis. -/
theorem C93_blocks {P : Platform} {z : Int} (hz : z ≤ 0) (hW : LawfulLt W) {above : Prop}
    (levels : List (MeshData W → Outs → Args W)) {g : MeshData W} (hg : GoodMesh g n) (hu : UniqueRows g.adjIdx g.adj)
    (hab : above → PrioritiesAbove g)
    (hgrid : IsGrid D ext n pos (Adj g.adjIdx g.adj)) (he : ∀ ax < D, ext ax % 2 ^ levels.length = 0)
    (hb : ∀ c < n, g.nBnd[c]? = some (sidesOut D ext (pos c) : Int))
    (hl : ∀ s ∈ levels, ∀ g' o' n', GoodMesh g' n' → n' ≤ n → (above → PrioritiesAbove g') →
      BlockCall P D ((s g' o').onMesh g') o') (o : Outs) :
    ∃ maps gN, runLevels P z levels g o = .ok (maps, gN) ∧
      ∀ i < n, ∀ j < n, (composeMaps maps i = composeMaps maps j ↔
        ∀ ax < D, pos i ax / 2 ^ levels.length = pos j ax / 2 ^ levels.length) := by
  obtain ⟨maps, gN, N, posN, h1, _, h3, h4⟩ := C93_levels hz hW levels hg hu hab hgrid he hb hl o
  refine ⟨maps, gN, h1, fun i hi j hj => ?_⟩
  obtain ⟨c, hc, e1, e2⟩ := h4 i hi
  obtain ⟨c', hc', e1', e2'⟩ := h4 j hj
  rw [e1, e1']
  constructor
  · intro h ax hax
    cases h
    rw [← e2 ax hax, e2' ax hax]
  · intro h
    rw [h3.inj c hc c' hc' (fun ax hax => by rw [e2 ax hax, e2' ax hax, h ax hax])]

/-! ## A concrete case: four by four cells, two levels -/

def exFourByFourPos : List (List Nat) :=
  [[0, 0], [1, 0], [2, 0], [3, 0], [0, 1], [1, 1], [2, 1], [3, 1], [0, 2], [1, 2], [2, 2], [3, 2], [0, 3], [1, 3], [2, 3], [3, 3]]

def exFourByFour : MeshData Int where
  adjIdx := [0, 2, 5, 8, 10, 13, 17, 21, 24, 27, 31, 35, 38, 40, 43, 46, 48]
  adj := [1, 4, 0, 2, 5, 1, 3, 6, 2, 7, 0, 5, 8, 1, 4, 6, 9, 2, 5, 7, 10, 3, 6, 11, 4, 9, 12, 5, 8, 10, 13, 6, 9, 11, 14,
    7, 10, 15, 8, 13, 9, 12, 14, 10, 13, 15, 11, 14]
  weights := List.replicate 48 1
  volumes := List.replicate 16 1
  centers := [[0, 0], [1, 0], [2, 0], [3, 0], [0, 1], [1, 1], [2, 1], [3, 1], [0, 2], [1, 2], [2, 2], [3, 2], [0, 3], [1, 3], [2, 3], [3, 3]]
  priority := List.replicate 16 1
  nBnd := [2, 1, 1, 2, 1, 0, 0, 1, 1, 0, 0, 1, 2, 1, 1, 2]

theorem exFourByFour_crs : ValidCRS 16 exFourByFour.adjIdx exFourByFour.adj := checkCRS_sound (by decide)

theorem exFourByFour_good : GoodMesh exFourByFour 16 where
  pos := by decide
  crs := exFourByFour_crs
  sym := checkSym_sound exFourByFour_crs (by decide +kernel)
  uniq := Or.inl (checkUniq_sound exFourByFour_crs (by decide +kernel))
  connected := connected_of_smaller (checkSym_sound exFourByFour_crs (by decide +kernel)) (by
    have key : ∀ i < 16, 0 < i → ∃ j < i, j ∈ rowOf exFourByFour.adjIdx exFourByFour.adj i := by decide +kernel
    intro i h0 h3
    obtain ⟨j, hj, hij⟩ := key i h3 h0
    exact ⟨j, hj, adj_iff_rowOf.2 hij⟩)
  weights := rfl
  volumes := rfl
  centers := rfl
  priority := rfl
  nBnd := rfl
  bndPos := by decide
  coords := ⟨2, by decide⟩

theorem exFourByFour_grid : IsGrid 2 (fun _ => 4) 16 (posOf exFourByFourPos) (Adj exFourByFour.adjIdx exFourByFour.adj) := by
  refine isGrid_of exFourByFour_crs (by decide +kernel) (by decide +kernel) ?_ ?_
  · intro v hv
    have key : ∀ x < 4, ∀ y < 4, ∃ c < 16, posOf exFourByFourPos c 0 = x ∧ posOf exFourByFourPos c 1 = y := by decide +kernel
    obtain ⟨c, hc, h0, h1⟩ := key (v 0) (hv 0 (by omega)) (v 1) (hv 1 (by omega))
    refine ⟨c, hc, fun ax hax => ?_⟩
    have : ax = 0 ∨ ax = 1 := by omega
    rcases this with rfl | rfl
    · exact h0
    · exact h1
  · have key : ∀ c < 16, ∀ c' < 16, (c' ∈ rowOf exFourByFour.adjIdx exFourByFour.adj c ↔
        nextTo 2 (posOf exFourByFourPos c) (posOf exFourByFourPos c') = true) := by decide +kernel
    intro c hc c' hc'
    rw [key c hc c' hc', nextTo_iff]

/-- settings that change from level to level -/
def exFourByFourLevels : List (MeshData Int → Outs → Args Int) := [fun _ _ => exGrid, fun _ _ => { exGrid with dim := 3, minCard := 4, maxCard := 7, fcIter := 1 }]

theorem exFourByFourLevels_ok (s : MeshData Int → Outs → Args Int) (hs : s ∈ exFourByFourLevels) (g' : MeshData Int) (o' : Outs) :
    BlockCall exPlatform 2 ((s g' o').onMesh g') o' := by
  have : s = (fun _ _ => exGrid) ∨ s = (fun _ _ => { exGrid with dim := 3, minCard := 4, maxCard := 7, fcIter := 1 }) := by
    simpa [exFourByFourLevels] using hs
  rcases this with rfl | rfl
  · exact ⟨⟨Or.inl rfl, by show (1 : Int) < 3; decide, by show (3 : Int) ≤ 4; decide, by show (4 : Int) ≤ 4; decide,
      ⟨by show (1 : Int) ≤ 2; decide, by show (2 : Int) ≤ 4; decide⟩, by show (1 : Int) ≤ 2; decide, nofun, nofun,
      fun h => by rcases h with h | h <;> cases h⟩, Or.inl rfl, rfl, Or.inr (Or.inl ⟨rfl, rfl⟩)⟩
  · exact ⟨⟨Or.inr rfl, by show (1 : Int) < 4; decide, by show (4 : Int) ≤ 4; decide, by show (4 : Int) ≤ 7; decide,
      ⟨by show (1 : Int) ≤ 1; decide, by show (1 : Int) ≤ 4; decide⟩, by show (1 : Int) ≤ 2; decide, nofun, nofun,
      fun h => by rcases h with h | h <;> cases h⟩, Or.inl rfl, rfl, Or.inr (Or.inr (Or.inl ⟨rfl, by show (7 : Int) ≤ 8; decide, rfl⟩))⟩

example := C93_blocks (P := exPlatform) (z := -100) (by decide) exLawful (above := False) exFourByFourLevels exFourByFour_good
  (checkUniq_sound exFourByFour_crs (by decide +kernel)) (fun h => h.elim) exFourByFour_grid (by decide)
  (by unfold sidesOut; decide +kernel) (fun s hs g' o' _ _ _ _ => exFourByFourLevels_ok s hs g' o') ⟨[], [], []⟩

end CoMMA
