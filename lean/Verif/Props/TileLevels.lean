import Verif.Props.TileRows
import Verif.Props.StructuredLevels
/-! # C103: several levels of a structured mesh, with blocks of other widths -/

set_option linter.unusedSectionVars false

namespace CoMMA

variable {W : Type} [Num W] {D n B : Nat} {ext : Nat → Nat} {pos : Nat → Nat → Nat}

open Tile

/-- a call without lines with the settings that make blocks of `B` cells along each axis (C91, C92, C102, C105) -/
structure TileCall (P : Platform) (D B : Nat) (a : Args W) (o : Outs) : Prop where
  params : ValidParams P a
  off : WithoutLines a o
  settings : (B = 2 ∧ BlockCall P D a o) ∨
    (3 ≤ B ∧ D = 2 ∧ a.dim = 2 ∧ a.goalCard ≤ (B * B : Nat) ∧ ((B * B : Nat) : Int) ≤ a.maxCard ∧
      (a.maxCard ≤ (B * B : Nat) + 1 ∨ (a.maxCard ≤ (B * B : Nat) + 2 ∧ a.goalCard = (B * B : Nat))) ∧
      a.nbh = .extended ∧ a.fcIter = 1) ∨
    (D = 1 ∧ a.maxCard = B)

theorem TileCall.two_le {P : Platform} {a : Args W} {o : Outs} (h : TileCall P D B a o) : 2 ≤ B := by
  have h1 := h.params.minCard
  have h2 := h.params.goalCard
  have h3 := h.params.maxCard
  rcases h.settings with h | h | h <;> omega

theorem TileCall.tiles {P : Platform} {a : Args W} {o : Outs} (h : TileCall P D B a o) (hm : ValidMesh a n) (hW : LawfulLt W)
    (hu : UniqueRows a.rowPtr a.colInd) (hg : IsGrid D ext n pos (Adj a.rowPtr a.colInd)) (he : ∀ ax < D, ext ax % B = 0)
    (hb : ∀ c < n, a.nBnd[c]? = some (sidesOut D ext (pos c))) :
    ∃ f : List Nat, agglomerateOneLevel P a o = (⟨f, o.linesIdx, o.lines⟩, .ok ()) ∧ f.length = n ∧ Contiguous f ∧
      ∀ i < n, ∀ j < n, (f[i]? = f[j]? ↔ SameTile B D (pos i) (pos j)) := by
  rcases h.settings with ⟨rfl, h'⟩ | ⟨hB, rfl, h1, h2, h3, h4, h5, h6⟩ | ⟨rfl, h1⟩
  · exact h'.blocks hm hW hu hg he hb
  · exact C102_tiles hm h.params hW hu h.off h1 hB h2 h3 h4 h5 h6 hg he hb
  · obtain ⟨f, e1, e2, e3, e4⟩ := C105_rows hm h.params hW hu h.off h1 hg (he 0 (by omega)) hb
    exact ⟨f, e1, e2, e3, fun i hi j hj => (e4 i hi j hj).trans same_one.symm⟩

theorem mul_add_div (hB : 0 < B) {t : Nat} (ht : t < B) (v : Nat) : (B * v + t) / B = v := by
  rw [Nat.add_comm, Nat.add_mul_div_left _ _ hB, Nat.div_eq_of_lt ht, Nat.zero_add]

theorem div_lt_mult (hB : 0 < B) {p e : Nat} (hp : p < e) (he : e % B = 0) : p / B < e / B := by
  rw [Nat.div_lt_iff_lt_mul hB, Nat.div_mul_cancel (Nat.dvd_of_mod_eq_zero he)]
  exact hp

/-- two consecutive numbers have the same quotient, or consecutive ones -/
theorem succ_div_cases (B u : Nat) : (u + 1) / B = u / B ∨ (u + 1) / B = u / B + 1 := by
  by_cases h : B ∣ u + 1
  · exact Or.inr (by rw [Nat.succ_div_of_dvd h])
  · exact Or.inl (by rw [Nat.succ_div_of_not_dvd h])

/-- the last cells along an axis are in the last block -/
theorem last_div {p e : Nat} (he : e % B = 0) (h : p + 1 = e) : p / B + 1 = e / B := by
  subst h
  rw [Nat.succ_div_of_dvd (Nat.dvd_of_mod_eq_zero he)]

/-- coordinates of coarse cell `c`: those of one of its cells, divided by the width of the blocks -/
def tilePos (B : Nat) (f : List Nat) (pos : Nat → Nat → Nat) (c ax : Nat) : Nat := pos (f.idxOf c) ax / B

theorem tilePos_eq {f : List Nat} (hf : f.length = n)
    (hs : ∀ i < n, ∀ j < n, (f[i]? = f[j]? ↔ SameTile B D (pos i) (pos j))) {i c : Nat} (hi : f[i]? = some c) :
    ∀ ax < D, tilePos B f pos c ax = pos i ax / B := by
  have hc : c ∈ f := List.mem_of_getElem? hi
  have h1 : f.idxOf c < f.length := List.idxOf_lt_length_of_mem hc
  have h2 : f[f.idxOf c]? = some c := by rw [List.getElem?_eq_getElem h1, List.getElem_idxOf]
  have h3 : i < f.length := (List.getElem?_eq_some_iff.1 hi).1
  exact (hs _ (by omega) i (by omega)).1 (by rw [h2, hi])

/-- the blocks of a grid form a grid -/
theorem IsGrid.tiles {R R' : Nat → Nat → Prop} (hg : IsGrid D ext n pos R) (hB : 2 ≤ B) (he : ∀ ax < D, ext ax % B = 0)
    {f : List Nat} {N : Nat} (hf : f.length = n) (hN : ∀ k, k ∈ f ↔ k < N)
    (hs : ∀ i < n, ∀ j < n, (f[i]? = f[j]? ↔ SameTile B D (pos i) (pos j)))
    (hR : ∀ k l, R' k l ↔ k ≠ l ∧ ∃ i j : Nat, f[i]? = some k ∧ f[j]? = some l ∧ R i j) :
    IsGrid D (fun ax => ext ax / B) N (tilePos B f pos) R' := by
  have hB0 : 0 < B := by omega
  have hex : ∀ c < N, ∃ i < n, f[i]? = some c := by
    intro c hc
    obtain ⟨i, hi⟩ := List.mem_iff_getElem?.1 ((hN c).2 hc)
    exact ⟨i, by rw [← hf]; exact (List.getElem?_eq_some_iff.1 hi).1, hi⟩
  have hlt : ∀ i c : Nat, f[i]? = some c → i < n ∧ c < N := fun i c h =>
    ⟨by rw [← hf]; exact (List.getElem?_eq_some_iff.1 h).1, (hN c).1 (List.mem_of_getElem? h)⟩
  refine ⟨?_, ?_, ?_, ?_⟩
  · intro c hc ax hax
    obtain ⟨i, hi, hic⟩ := hex c hc
    rw [tilePos_eq hf hs hic ax hax]
    exact div_lt_mult hB0 (hg.range i hi ax hax) (he ax hax)
  · intro c hc c' hc' h
    obtain ⟨i, hi, hic⟩ := hex c hc
    obtain ⟨i', hi', hic'⟩ := hex c' hc'
    have := (hs i hi i' hi').2 (fun ax hax => by
      have := h ax hax
      rwa [tilePos_eq hf hs hic ax hax, tilePos_eq hf hs hic' ax hax] at this)
    rw [hic, hic'] at this
    exact Option.some.inj this
  · intro v hv
    obtain ⟨i, hi, hp⟩ := hg.surj (fun ax => B * v ax) (fun ax hax => by
      have h1 : v ax < ext ax / B := hv ax hax
      have h2 := Nat.mul_div_cancel' (Nat.dvd_of_mod_eq_zero (he ax hax))
      have h3 := Nat.mul_lt_mul_of_pos_left h1 hB0
      omega)
    have hi' : i < f.length := by omega
    refine ⟨f[i], (hN _).1 (List.getElem_mem hi'), fun ax hax => ?_⟩
    rw [tilePos_eq hf hs (List.getElem?_eq_getElem hi') ax hax, hp ax hax, Nat.mul_div_cancel_left _ hB0]
  · intro c c'
    rw [hR]
    constructor
    · rintro ⟨hne, i, j, hi, hj, hij⟩
      refine ⟨(hlt i c hi).2, (hlt j c' hj).2, ?_⟩
      obtain ⟨h1, h2, ax, hax, hstep, hrest⟩ := (hg.adj i j).1 hij
      have hp := tilePos_eq hf hs hi
      have hp' := tilePos_eq hf hs hj
      have hd : pos i ax / B ≠ pos j ax / B := by
        intro hd
        have : f[i]? = f[j]? := (hs i h1 j h2).2 (fun b hb => by
          by_cases hba : b = ax
          · rw [hba]; exact hd
          · rw [hrest b hb hba])
        rw [hi, hj] at this
        exact hne (Option.some.inj this)
      refine ⟨ax, hax, ?_, fun b hb hba => ?_⟩
      · rw [hp ax hax, hp' ax hax]
        rcases hstep with h | h
        · have := succ_div_cases B (pos i ax)
          rw [h] at this
          rcases this with h | h
          · exact absurd h.symm hd
          · exact Or.inl h.symm
        · have := succ_div_cases B (pos j ax)
          rw [h] at this
          rcases this with h | h
          · exact absurd h hd
          · exact Or.inr h.symm
      · rw [hp b hb, hp' b hb, hrest b hb hba]
    · rintro ⟨hc, hc', ax, hax, hstep, hrest⟩
      obtain ⟨i, hi, hic⟩ := hex c hc
      obtain ⟨j, hj, hjc⟩ := hex c' hc'
      have hp := tilePos_eq hf hs hic
      have hp' := tilePos_eq hf hs hjc
      rw [hp ax hax, hp' ax hax] at hstep
      have key : ∀ k < n, ∀ t < B, ∃ m < n, f[m]? = f[k]? ∧ pos m ax = B * (pos k ax / B) + t ∧
          ∀ b < D, b ≠ ax → pos m b = B * (pos k b / B) := by
        intro k hk t ht
        have hdiv : ∀ b, (if b = ax then B * (pos k ax / B) + t else B * (pos k b / B)) / B = pos k b / B := by
          intro b
          by_cases hba : b = ax
          · subst hba; rw [if_pos rfl, mul_add_div hB0 ht]
          · rw [if_neg hba, Nat.mul_div_cancel_left _ hB0]
        obtain ⟨m, hm, hp⟩ := hg.surj (fun b => if b = ax then B * (pos k ax / B) + t else B * (pos k b / B)) (fun b hb =>
          tile_lt hB0 (hdiv b) (hg.range k hk b hb) (he b hb))
        refine ⟨m, hm, (hs m hm k hk).2 (fun b hb => ?_), ?_, fun b hb hba => ?_⟩
        · rw [hp b hb]; exact hdiv b
        · rw [hp ax hax]; simp
        · rw [hp b hb]; simp [hba]
      have hhalf : ∀ b < D, b ≠ ax → pos i b / B = pos j b / B := by
        intro b hb hba
        have := hrest b hb hba
        rwa [hp b hb, hp' b hb] at this
      refine ⟨fun h => ?_, ?_⟩
      · subst h
        have := (hs i hi j hj).1 (by rw [hic, hjc]) ax hax
        omega
      · rcases hstep with hstep | hstep
        · obtain ⟨m, hm, e1, e2, e3⟩ := key i hi (B - 1) (by omega)
          obtain ⟨m', hm', e1', e2', e3'⟩ := key j hj 0 (by omega)
          refine ⟨m, m', by rw [e1, hic], by rw [e1', hjc], (hg.adj m m').2 ⟨hm, hm', ax, hax, ?_, fun b hb hba => ?_⟩⟩
          · rw [← hstep, Nat.mul_add] at e2'
            omega
          · rw [e3 b hb hba, e3' b hb hba, hhalf b hb hba]
        · obtain ⟨m, hm, e1, e2, e3⟩ := key i hi 0 (by omega)
          obtain ⟨m', hm', e1', e2', e3'⟩ := key j hj (B - 1) (by omega)
          refine ⟨m, m', by rw [e1, hic], by rw [e1', hjc], (hg.adj m m').2 ⟨hm, hm', ax, hax, ?_, fun b hb hba => ?_⟩⟩
          · rw [← hstep, Nat.mul_add] at e2
            omega
          · rw [e3 b hb hba, e3' b hb hba, hhalf b hb hba]

/-- along one axis, a cell of the block has as many sides on the boundary as the block -/
theorem side_at (hB : 2 ≤ B) {e p : Nat} (he : e % B = 0) (hp : p < e) (h2 : 2 ≤ e / B) : ∃ v < e, v / B = p / B ∧
    ((if v = 0 then 1 else 0) + (if v + 1 = e then 1 else 0) : Nat) =
      (if p / B = 0 then 1 else 0) + (if p / B + 1 = e / B then 1 else 0) := by
  have hB0 : 0 < B := by omega
  have hm := Nat.mul_div_cancel' (Nat.dvd_of_mod_eq_zero he)
  have hbig : 2 * 2 ≤ B * (e / B) := Nat.mul_le_mul hB h2
  by_cases h0 : p / B = 0
  · refine ⟨0, by omega, by rw [h0, Nat.zero_div], ?_⟩
    rw [if_pos rfl, if_neg (by omega), if_pos h0, if_neg (by omega)]
  · by_cases h1 : p / B + 1 = e / B
    · have hl := last_div (p := e - 1) he (by omega)
      refine ⟨e - 1, by omega, by omega, ?_⟩
      rw [if_neg (by omega), if_pos (by omega), if_neg h0, if_pos h1]
    · refine ⟨p, hp, rfl, ?_⟩
      have hp0 : p ≠ 0 := fun h => h0 (by rw [h, Nat.zero_div])
      have hp1 : p + 1 ≠ e := fun h => h1 (last_div he h)
      rw [if_neg hp0, if_neg hp1, if_neg h0, if_neg h1]

/-- the number of sides of a block on the boundary is the largest number of its cells, if there are at least two blocks
along each axis -/
theorem sidesOut_tiles {R : Nat → Nat → Prop} (hg : IsGrid D ext n pos R) (hB : 2 ≤ B) (he : ∀ ax < D, ext ax % B = 0)
    (h2 : ∀ ax < D, 2 ≤ ext ax / B) {i : Nat} (hi : i < n) :
    (∀ j < n, SameTile B D (pos j) (pos i) → sidesOut D ext (pos j) ≤ sidesOut D (fun ax => ext ax / B) (fun ax => pos i ax / B)) ∧
      ∃ j < n, SameTile B D (pos j) (pos i) ∧
        sidesOut D ext (pos j) = sidesOut D (fun ax => ext ax / B) (fun ax => pos i ax / B) := by
  have hB0 : 0 < B := by omega
  constructor
  · intro j hj hs
    unfold sidesOut
    refine Finset.sum_le_sum fun ax hax => ?_
    have hax := Finset.mem_range.1 hax
    have h1 : pos j ax / B = pos i ax / B := hs ax hax
    refine Nat.add_le_add ?_ ?_
    · by_cases h : pos j ax = 0
      · rw [if_pos h, if_pos (show pos i ax / B = 0 by rw [← h1, h, Nat.zero_div])]
      · rw [if_neg h]; exact Nat.zero_le _
    · by_cases h : pos j ax + 1 = ext ax
      · rw [if_pos h, if_pos (show pos i ax / B + 1 = ext ax / B by rw [← h1]; exact last_div (he ax hax) h)]
      · rw [if_neg h]; exact Nat.zero_le _
  · have hat : ∀ ax, ax < D → ∃ v < ext ax, v / B = pos i ax / B ∧
        ((if v = 0 then 1 else 0) + (if v + 1 = ext ax then 1 else 0) : Nat) =
          (if pos i ax / B = 0 then 1 else 0) + (if pos i ax / B + 1 = ext ax / B then 1 else 0) :=
      fun ax hax => side_at hB (he ax hax) (hg.range i hi ax hax) (h2 ax hax)
    choose! v hv using hat
    obtain ⟨j, hj, hp⟩ := hg.surj v (fun ax hax => (hv ax hax).1)
    refine ⟨j, hj, fun ax hax => ?_, ?_⟩
    · rw [hp ax hax]; exact (hv ax hax).2.1
    · unfold sidesOut
      refine Finset.sum_congr rfl fun ax hax => ?_
      have hax := Finset.mem_range.1 hax
      rw [hp ax hax]
      exact (hv ax hax).2.2

/-- cells of the finest mesh along each axis of a coarsest cell: the product of the widths of the blocks of the levels -/
def totalWidth (levels : List (Nat × (MeshData W → Outs → Args W))) : Nat := (levels.map Prod.fst).prod

theorem two_le_totalWidth {levels : List (Nat × (MeshData W → Outs → Args W))} (hne : levels ≠ []) (h : ∀ s ∈ levels, 2 ≤ s.1) :
    2 ≤ totalWidth levels := by
  have key : ∀ levels : List (Nat × (MeshData W → Outs → Args W)), (∀ s ∈ levels, 2 ≤ s.1) → 1 ≤ totalWidth levels := by
    intro levels
    induction levels with
    | nil => intro _; simp [totalWidth]
    | cons s r ih =>
      intro h
      have h1 := ih (fun t ht => h t (List.mem_cons_of_mem _ ht))
      have h2 := h s (by simp)
      have h3 : totalWidth (s :: r) = s.1 * totalWidth r := by simp [totalWidth]
      rw [h3]
      exact Nat.mul_pos (by omega) h1
  cases levels with
  | nil => exact absurd rfl hne
  | cons s r =>
    have h1 := key r (fun t ht => h t (List.mem_cons_of_mem _ ht))
    have h2 := h s (by simp)
    have h3 : totalWidth (s :: r) = s.1 * totalWidth r := by simp [totalWidth]
    rw [h3]
    exact Nat.mul_le_mul h2 h1

/-- **C103** Several levels of a structured mesh, each with the settings that make blocks of some width (C91, C92, C102; widths and
other settings may change from level to level), the numbers of cells along the axes being multiples of the product of the widths:
the calls return, the coarsest mesh is the structured mesh with that many times fewer cells along each axis, and each finest
cell ends up in the coarsest cell at its own coordinates divided by that product. -/
theorem C103_levels {P : Platform} {z : Int} (hz : z ≤ 0) (hW : LawfulLt W) {above : Prop}
    (levels : List (Nat × (MeshData W → Outs → Args W))) {g : MeshData W} (hg : GoodMesh g n) (hu : UniqueRows g.adjIdx g.adj)
    (hab : above → PrioritiesAbove g)
    (hgrid : IsGrid D ext n pos (Adj g.adjIdx g.adj)) (he : ∀ ax < D, ext ax % totalWidth levels = 0)
    (hb : ∀ c < n, g.nBnd[c]? = some (sidesOut D ext (pos c) : Int))
    (hl : ∀ s ∈ levels, ∀ g' o' n', GoodMesh g' n' → n' ≤ n → (above → PrioritiesAbove g') →
      TileCall P D s.1 ((s.2 g' o').onMesh g') o') (o : Outs) :
    ∃ maps gN N posN, runLevels P z (levels.map Prod.snd) g o = .ok (maps, gN) ∧ GoodMesh gN N ∧
      IsGrid D (fun ax => ext ax / totalWidth levels) N posN (Adj gN.adjIdx gN.adj) ∧
      ∀ i < n, ∃ c < N, composeMaps maps i = some c ∧ ∀ ax < D, posN c ax = pos i ax / totalWidth levels := by
  have main : ∀ (levels : List (Nat × (MeshData W → Outs → Args W))) {n : Nat} {ext : Nat → Nat} {pos : Nat → Nat → Nat} {g : MeshData W},
      GoodMesh g n → UniqueRows g.adjIdx g.adj → (above → PrioritiesAbove g) →
      IsGrid D ext n pos (Adj g.adjIdx g.adj) → (∀ ax < D, ext ax % totalWidth levels = 0) →
      (levels ≠ [] → ∀ c < n, g.nBnd[c]? = some (sidesOut D ext (pos c) : Int)) →
      (∀ s ∈ levels, ∀ g' o' n', GoodMesh g' n' → n' ≤ n → (above → PrioritiesAbove g') →
        TileCall P D s.1 ((s.2 g' o').onMesh g') o') → ∀ o : Outs,
      ∃ maps gN N posN, runLevels P z (levels.map Prod.snd) g o = .ok (maps, gN) ∧ GoodMesh gN N ∧
        IsGrid D (fun ax => ext ax / totalWidth levels) N posN (Adj gN.adjIdx gN.adj) ∧
        ∀ i < n, ∃ c < N, composeMaps maps i = some c ∧ ∀ ax < D, posN c ax = pos i ax / totalWidth levels := by
    intro levels
    induction levels with
    | nil =>
      intro n ext pos g hg _ _ hgrid _ _ _ o
      exact ⟨[], g, n, pos, rfl, hg, by simpa [totalWidth] using hgrid, fun i hi => ⟨i, hi, rfl, by simp [totalWidth]⟩⟩
    | cons s r ih =>
      intro n ext pos g hg hu hab hgrid he hb hl o
      have htot : totalWidth (s :: r) = s.1 * totalWidth r := by simp [totalWidth]
      rw [htot] at he
      have hcall := hl s (by simp) g o n hg (Nat.le_refl n) hab
      have hB := hcall.two_le
      have hB0 : 0 < s.1 := by omega
      have he2 : ∀ ax < D, ext ax % s.1 = 0 := fun ax hax =>
        Nat.mod_eq_zero_of_dvd (Nat.dvd_trans (Nat.dvd_mul_right _ _) (Nat.dvd_of_mod_eq_zero (he ax hax)))
      obtain ⟨f, h1, h2, ⟨N, hN⟩, h3⟩ := hcall.tiles (hg.validMesh _) hW hu hgrid he2 (by
        intro c hc
        simp only [Args.onMesh, List.getElem?_map, hb (by simp) c hc, Option.map_some, Int.toNat_natCast])
      obtain ⟨g', h4, h5, h6, h7⟩ := C18_coarse_mesh hg h2 hN hz
      have hNpos := h5.pos
      have hcc : CoarseCount f N := ⟨fun k hk => (hN k).1 hk, (hN _).2 (by omega)⟩
      obtain ⟨g2, e2, hcrs, hsorted, _, hadj, _⟩ := C16_adjacency hg.validData h2 hcc z
      rw [h4] at e2; cases e2
      obtain ⟨g3, e3, _, hbnd⟩ := C43_boundary hg.validData h2 hcc (z := z) (fun b hb => by have := hg.bndPos b hb; omega)
      rw [h4] at e3; cases e3
      have hgrid' := hgrid.tiles hB he2 h2 hN h3 hadj
      have he' : ∀ ax < D, ext ax / s.1 % totalWidth r = 0 := fun ax hax =>
        Nat.mod_eq_zero_of_dvd (Nat.dvd_div_of_mul_dvd (Nat.dvd_of_mod_eq_zero (he ax hax)))
      have hb' : r ≠ [] → ∀ c < N, g'.nBnd[c]? = some (sidesOut D (fun ax => ext ax / s.1) (tilePos s.1 f pos c) : Int) := by
        intro hr c hc
        have hrest : ∀ t ∈ r, 2 ≤ t.1 := fun t ht => (hl t (List.mem_cons_of_mem _ ht) g o n hg (Nat.le_refl n) hab).two_le
        have hwide : 2 ≤ totalWidth r := two_le_totalWidth hr hrest
        have he4 : ∀ ax < D, 2 ≤ ext ax / s.1 := by
          intro ax hax
          have h8 := he' ax hax
          have h9 := div_lt_mult hB0 (hgrid.range 0 hg.pos ax hax) (he2 ax hax)
          exact Nat.le_trans hwide (Nat.le_of_dvd (Nat.zero_lt_of_lt h9) (Nat.dvd_of_mod_eq_zero h8))
        obtain ⟨b, hb1, hb2, hb3⟩ := hbnd c ((hN c).2 hc)
        obtain ⟨i, hi⟩ := List.mem_iff_getElem?.1 ((hN c).2 hc)
        have hin : i < n := by rw [← h2]; exact (List.getElem?_eq_some_iff.1 hi).1
        obtain ⟨hup, j, hj, hsame, hsides⟩ := sidesOut_tiles hgrid hB he2 he4 hin
        have hcp := sidesOut_congr (D := D) (e := fun ax => ext ax / s.1) (fun _ _ => rfl) (tilePos_eq h2 h3 hi)
        rw [hb1, hcp]
        congr 1
        have hmem : ∀ x : Int, x ∈ entriesAt g.nBnd (cellsOf f c) ↔ ∃ k < n, SameTile s.1 D (pos k) (pos i) ∧ x = (sidesOut D ext (pos k) : Int) := by
          intro x
          unfold entriesAt
          rw [List.mem_filterMap]
          constructor
          · rintro ⟨k, hk, hx⟩
            have hk := mem_cellsOf.1 hk
            have hkn : k < n := by rw [← h2]; exact (List.getElem?_eq_some_iff.1 hk).1
            rw [hb (by simp) k hkn] at hx
            exact ⟨k, hkn, (h3 k hkn i hin).1 (by rw [hk, hi]), (Option.some.inj hx).symm⟩
          · rintro ⟨k, hk, hs, rfl⟩
            exact ⟨k, mem_cellsOf.2 (by rw [(h3 k hk i hin).2 hs, hi]), hb (by simp) k hk⟩
        obtain ⟨k, hk, hks, hkb⟩ := (hmem b).1 hb2
        have h11 := hup k hk hks
        have h12 := hb3 _ ((hmem _).2 ⟨j, hj, hsame, rfl⟩)
        omega
      have hu' : UniqueRows g'.adjIdx g'.adj := by
        obtain ⟨g4, _, _, e4, _, hh, _⟩ := hcc.exists_ok hg.validData h2 z
        rw [h4] at e4; cases e4
        exact hh.uniq
      obtain ⟨maps, gN, M, posN, h8, h9, h10, h11⟩ := ih h5 hu' (fun h => h7 (hW.irrefl _) (hab h)) hgrid' he' hb'
        (fun s hs g' o' n' hg' hn' => hl s (List.mem_cons_of_mem _ hs) g' o' n' hg' (by omega)) ⟨f, o.linesIdx, o.lines⟩
      refine ⟨f :: maps, gN, M, posN, ?_, h9, ?_, ?_⟩
      · simp only [List.map_cons]
        unfold runLevels
        rw [h1]
        simp only [h4, h8]
      · simp only [htot, ← Nat.div_div_eq_div_mul]
        exact h10
      · intro i hi
        have hi' : i < f.length := by omega
        obtain ⟨c, hc, hm, hp⟩ := h11 f[i] ((hN _).1 (List.getElem_mem hi'))
        refine ⟨c, hc, by simp [composeMaps, List.getElem?_eq_getElem hi', hm], fun ax hax => ?_⟩
        rw [hp ax hax, tilePos_eq h2 h3 (List.getElem?_eq_getElem hi') ax hax, Nat.div_div_eq_div_mul, htot]
  exact main levels hg hu hab hgrid he (fun _ => hb) hl o

/-- **C103** (the blocks) Two finest cells end up in the same coarsest cell if and only if they are in the same block whose
width is the product of the widths of the levels. -/
theorem C103_blocks {P : Platform} {z : Int} (hz : z ≤ 0) (hW : LawfulLt W) {above : Prop}
    (levels : List (Nat × (MeshData W → Outs → Args W))) {g : MeshData W} (hg : GoodMesh g n) (hu : UniqueRows g.adjIdx g.adj)
    (hab : above → PrioritiesAbove g)
    (hgrid : IsGrid D ext n pos (Adj g.adjIdx g.adj)) (he : ∀ ax < D, ext ax % totalWidth levels = 0)
    (hb : ∀ c < n, g.nBnd[c]? = some (sidesOut D ext (pos c) : Int))
    (hl : ∀ s ∈ levels, ∀ g' o' n', GoodMesh g' n' → n' ≤ n → (above → PrioritiesAbove g') →
      TileCall P D s.1 ((s.2 g' o').onMesh g') o') (o : Outs) :
    ∃ maps gN, runLevels P z (levels.map Prod.snd) g o = .ok (maps, gN) ∧
      ∀ i < n, ∀ j < n, (composeMaps maps i = composeMaps maps j ↔
        ∀ ax < D, pos i ax / totalWidth levels = pos j ax / totalWidth levels) := by
  obtain ⟨maps, gN, N, posN, h1, _, h3, h4⟩ := C103_levels hz hW levels hg hu hab hgrid he hb hl o
  refine ⟨maps, gN, h1, fun i hi j hj => ?_⟩
  obtain ⟨c, hc, e1, e2⟩ := h4 i hi
  obtain ⟨c', hc', e1', e2'⟩ := h4 j hj
  rw [e1, e1']
  constructor
  · intro h ax hax
    cases h
    rw [← e2 ax hax, e2' ax hax]
  · intro h
    rw [h3.inj c hc c' hc' (fun ax hax => by rw [e2 ax hax, e2' ax hax, h ax hax])]

/-! ## A concrete case: six by six cells, blocks of three and then of two -/

def exSixBySixPos : List (List Nat) := (List.range 36).map (fun i => [i % 6, i / 6])

def exSixBySix : MeshData Int where
  adjIdx := [0, 2, 5, 8, 11, 14, 16, 19, 23, 27, 31, 35, 38, 41, 45, 49, 53, 57, 60, 63, 67, 71, 75, 79, 82, 85, 89, 93, 97,
    101, 104, 106, 109, 112, 115, 118, 120]
  adj := [1, 6, 0, 2, 7, 1, 3, 8, 2, 4, 9, 3, 5, 10, 4, 11, 0, 7, 12, 1, 6, 8, 13, 2, 7, 9, 14, 3, 8, 10, 15, 4, 9, 11, 16,
    5, 10, 17, 6, 13, 18, 7, 12, 14, 19, 8, 13, 15, 20, 9, 14, 16, 21, 10, 15, 17, 22, 11, 16, 23, 12, 19, 24, 13, 18,
    20, 25, 14, 19, 21, 26, 15, 20, 22, 27, 16, 21, 23, 28, 17, 22, 29, 18, 25, 30, 19, 24, 26, 31, 20, 25, 27, 32, 21,
    26, 28, 33, 22, 27, 29, 34, 23, 28, 35, 24, 31, 25, 30, 32, 26, 31, 33, 27, 32, 34, 28, 33, 35, 29, 34]
  weights := List.replicate 120 1
  volumes := List.replicate 36 1
  centers := (List.range 36).map (fun i => [(i % 6 : Nat), (i / 6 : Nat)])
  priority := List.replicate 36 1
  nBnd := [2, 1, 1, 1, 1, 2, 1, 0, 0, 0, 0, 1, 1, 0, 0, 0, 0, 1, 1, 0, 0, 0, 0, 1, 1, 0, 0, 0, 0, 1, 2, 1, 1, 1, 1, 2]

theorem exSixBySix_crs : ValidCRS 36 exSixBySix.adjIdx exSixBySix.adj := checkCRS_sound (by decide +kernel)

theorem exSixBySix_good : GoodMesh exSixBySix 36 where
  pos := by decide
  crs := exSixBySix_crs
  sym := checkSym_sound exSixBySix_crs (by decide +kernel)
  uniq := Or.inl (checkUniq_sound exSixBySix_crs (by decide +kernel))
  connected := connected_of_smaller (checkSym_sound exSixBySix_crs (by decide +kernel)) (by
    have key : ∀ i < 36, 0 < i → ∃ j < i, j ∈ rowOf exSixBySix.adjIdx exSixBySix.adj i := by decide +kernel
    intro i h0 h3
    obtain ⟨j, hj, hij⟩ := key i h3 h0
    exact ⟨j, hj, adj_iff_rowOf.2 hij⟩)
  weights := rfl
  volumes := rfl
  centers := rfl
  priority := rfl
  nBnd := rfl
  bndPos := by decide
  coords := ⟨2, by decide⟩

theorem exSixBySix_grid : IsGrid 2 (fun _ => 6) 36 (posOf exSixBySixPos) (Adj exSixBySix.adjIdx exSixBySix.adj) := by
  refine isGrid_of exSixBySix_crs (by decide +kernel) (by decide +kernel) ?_ ?_
  · intro v hv
    have key : ∀ x < 6, ∀ y < 6, ∃ c < 36, posOf exSixBySixPos c 0 = x ∧ posOf exSixBySixPos c 1 = y := by decide +kernel
    obtain ⟨c, hc, h0, h1⟩ := key (v 0) (hv 0 (by omega)) (v 1) (hv 1 (by omega))
    refine ⟨c, hc, fun ax hax => ?_⟩
    have : ax = 0 ∨ ax = 1 := by omega
    rcases this with rfl | rfl
    · exact h0
    · exact h1
  · have key : ∀ c < 36, ∀ c' < 36, (c' ∈ rowOf exSixBySix.adjIdx exSixBySix.adj c ↔
        nextTo 2 (posOf exSixBySixPos c) (posOf exSixBySixPos c') = true) := by decide +kernel
    intro c hc c' hc'
    rw [key c hc c' hc', nextTo_iff]

/-- nine cells and then four -/
def exSixBySixLevels : List (Nat × (MeshData Int → Outs → Args Int)) := [(3, fun _ _ => exTiles), (2, fun _ _ => exGrid)]

theorem exSixBySixLevels_ok (s : Nat × (MeshData Int → Outs → Args Int)) (hs : s ∈ exSixBySixLevels) (g' : MeshData Int) (o' : Outs) :
    TileCall exPlatform 2 s.1 ((s.2 g' o').onMesh g') o' := by
  have : s = (3, fun _ _ => exTiles) ∨ s = (2, fun _ _ => exGrid) := by
    simpa [exSixBySixLevels] using hs
  rcases this with rfl | rfl
  · exact ⟨⟨Or.inl rfl, by show (1 : Int) < 5; decide, by show (5 : Int) ≤ 9; decide, by show (9 : Int) ≤ 9; decide,
      ⟨by show (1 : Int) ≤ 1; decide, by show (1 : Int) ≤ 4; decide⟩, by show (1 : Int) ≤ 1; decide, nofun, nofun,
      fun h => by rcases h with h | h <;> cases h⟩, Or.inl rfl, Or.inr (Or.inl ⟨by decide, rfl, rfl, by show (9 : Int) ≤ 9; decide,
      by show (9 : Int) ≤ 9; decide, Or.inl (by show (9 : Int) ≤ 10; decide), rfl, rfl⟩)⟩
  · have hp : ValidParams exPlatform (exGrid.onMesh g') :=
      ⟨Or.inl rfl, by show (1 : Int) < 3; decide, by show (3 : Int) ≤ 4; decide, by show (4 : Int) ≤ 4; decide,
        ⟨by show (1 : Int) ≤ 2; decide, by show (2 : Int) ≤ 4; decide⟩, by show (1 : Int) ≤ 2; decide, nofun, nofun,
        fun h => by rcases h with h | h <;> cases h⟩
    exact ⟨hp, Or.inl rfl, Or.inl ⟨rfl, hp, Or.inl rfl, rfl, Or.inr (Or.inl ⟨rfl, rfl⟩)⟩⟩

example := C103_blocks (P := exPlatform) (z := -100) (by decide) exLawful (above := False) exSixBySixLevels exSixBySix_good
  (checkUniq_sound exSixBySix_crs (by decide +kernel)) (fun h => h.elim) exSixBySix_grid (by decide)
  (by unfold sidesOut; decide +kernel) (fun s hs g' o' _ _ _ _ => exSixBySixLevels_ok s hs g' o') ⟨[], [], []⟩

end CoMMA
