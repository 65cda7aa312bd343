import Verif.Lemmas.RowLevels
import Verif.Props.RowChain
/-! # C107: several levels of a row of cells of any length -/

set_option linter.unusedSectionVars false

namespace CoMMA

variable {W : Type} [Num W] {n m t : Nat} {ext : Nat → Nat} {pos : Nat → Nat → Nat}

open Row

/-- a call without lines on a row of `n` cells that makes groups of `m` cells and one with the cells left (C106) -/
structure RowCall (P : Platform) (m n : Nat) (a : Args W) (o : Outs) : Prop where
  params : ValidParams P a
  off : WithoutLines a o
  card : a.maxCard = m
  left : a.correction = true → n % m = 0 ∨ a.singThresh < (n % m : Nat) ∨ a.minCard ≤ (n % m : Nat)

theorem RowCall.two_le {P : Platform} {a : Args W} {o : Outs} (h : RowCall P m n a o) : 2 ≤ m := by
  have h1 := h.params.minCard
  have h2 := h.params.goalCard
  have h3 := h.params.maxCard
  have h4 := h.card
  omega

/-- the groups of C106; the boundary faces of a single cell play no part -/
theorem RowCall.groups {P : Platform} {a : Args W} {o : Outs} (h : RowCall P m n a o) (hm : ValidMesh a n) (hW : LawfulLt W)
    (hu : UniqueRows a.rowPtr a.colInd) (hg : IsGrid 1 ext n pos (Adj a.rowPtr a.colInd))
    (hb : 2 ≤ n → ∀ c < n, a.nBnd[c]? = some (sidesOut 1 ext (pos c))) :
    ∃ f : List Nat, agglomerateOneLevel P a o = (⟨f, o.linesIdx, o.lines⟩, .ok ()) ∧ f.length = n ∧ Contiguous f ∧
      ∃ t, t * m + n % m ≤ n ∧
        ∀ i < n, ∀ j < n, (f[i]? = f[j]? ↔ rowGroup m (n % m) t (pos i 0) = rowGroup m (n % m) t (pos j 0)) := by
  by_cases h2 : 2 ≤ n
  · exact C106_rows hm h.params hW hu h.off h.card h.left hg (hb h2)
  · have hn := hm.pos
    obtain rfl : n = 1 := by omega
    have hm2 := h.two_le
    have hmod : 1 % m = 1 := Nat.mod_eq_of_lt (by omega)
    have hcor : a.correction = false := by
      cases hc : a.correction with
      | false => rfl
      | true =>
        have h1 := h.left hc
        have h2 := h.params.thresh
        have h3 := h.params.minCard
        rw [hmod] at h1
        omega
    obtain ⟨f, h3, h4⟩ := C01_total (P := P) (o := o) hm h.params (fun h => by rw [hcor] at h; cases h) h.off
    have hcon := C02_contiguous (P := P) (o := o) hm h.params (fun h => by rw [hcor] at h; cases h) h.off
    rw [h3] at hcon
    refine ⟨f, h3, h4, hcon, 0, by omega, fun i hi j hj => ?_⟩
    obtain rfl : i = 0 := by omega
    obtain rfl : j = 0 := by omega
    exact ⟨fun _ => rfl, fun _ => rfl⟩

theorem totalWidth_cons (s : Nat × (MeshData W → Outs → Args W)) (r : List (Nat × (MeshData W → Outs → Args W))) :
    totalWidth (s :: r) = s.1 * totalWidth r := by simp [totalWidth]

theorem totalWidth_pos {levels : List (Nat × (MeshData W → Outs → Args W))} (h : ∀ s ∈ levels, 0 < s.1) :
    0 < totalWidth levels := by
  induction levels with
  | nil => simp [totalWidth]
  | cons s r ih =>
    rw [totalWidth_cons]
    exact Nat.mul_pos (h s (by simp)) (ih fun x hx => h x (List.mem_cons_of_mem _ hx))

/-- **C107** Several levels of a row of any number of cells: the calls return and the coarsest mesh is a row of as many cells as
the number of finest cells divided by the product of the values of `max_card`, rounded up. The coarsest cells follow each other in
the row as their finest cells do, and none of them holds two finest cells that are as far from each other as that product. -/
theorem C107_levels {P : Platform} {z : Int} (hz : z ≤ 0) (hW : LawfulLt W) {above : Prop}
    (levels : List (Nat × (MeshData W → Outs → Args W))) {g : MeshData W} (hg : GoodMesh g n) (hu : UniqueRows g.adjIdx g.adj)
    (hab : above → PrioritiesAbove g)
    (hgrid : IsGrid 1 ext n pos (Adj g.adjIdx g.adj))
    (hb : ∀ c < n, g.nBnd[c]? = some (sidesOut 1 ext (pos c) : Int)) (hw : ∀ s ∈ levels, 0 < s.1)
    (hl : ∀ before s after, levels = before ++ s :: after → ∀ g' o', GoodMesh g' (upDiv n (totalWidth before)) →
      (above → PrioritiesAbove g') → RowCall P s.1 (upDiv n (totalWidth before)) ((s.2 g' o').onMesh g') o') (o : Outs) :
    ∃ maps gN N posN, runLevels P z (levels.map Prod.snd) g o = .ok (maps, gN) ∧ GoodMesh gN N ∧
      N = upDiv n (totalWidth levels) ∧ IsGrid 1 (fun _ => N) N posN (Adj gN.adjIdx gN.adj) ∧
      (∀ i < n, ∃ c < N, composeMaps maps i = some c) ∧
      ∀ i < n, ∀ j < n, ∀ c c', composeMaps maps i = some c → composeMaps maps j = some c' →
        (pos i 0 ≤ pos j 0 → posN c 0 ≤ posN c' 0) ∧ (pos i 0 + totalWidth levels ≤ pos j 0 → posN c 0 < posN c' 0) := by
  have hcells : ∀ l : List (Nat × (MeshData W → Outs → Args W)), (∀ x ∈ l, x ∈ levels) → cellsAfter (fun m k => upDiv k m) n l =
      upDiv n (totalWidth l) := by
    intro l hl
    have key : ∀ (l : List (Nat × (MeshData W → Outs → Args W))) (k : Nat), (∀ x ∈ l, 0 < x.1) → cellsAfter (fun m k => upDiv k m) k l =
        upDiv k (totalWidth l) := by
      intro l
      induction l with
      | nil => intro k _; simp [cellsAfter, totalWidth, upDiv_one]
      | cons s r ih =>
        intro k hr
        rw [totalWidth_cons, ← upDiv_upDiv (hr s (by simp)) (totalWidth_pos fun x hx => hr x (List.mem_cons_of_mem _ hx)),
          ← ih _ (fun x hx => hr x (List.mem_cons_of_mem _ hx))]
        rfl
    exact key l n (fun x hx => hw x (hl x hx))
  have hwid : ∀ l : List (Nat × (MeshData W → Outs → Args W)), widthOf 0 (l.map Prod.fst) = totalWidth l := by
    intro l
    induction l with
    | nil => simp [widthOf, totalWidth]
    | cons s r ih => rw [List.map_cons, totalWidth_cons, ← ih]; rfl
  obtain ⟨maps, gN, N, posN, h1, h2, h3, h4, h5, h6⟩ := cut_levels hz hW (cnt := fun m k => upDiv k m) (x := 0) levels hg hu hab
    hgrid (fun _ => hb) (by
      intro before s after he g' o' ext' pos' hg' hu' hab' hgrid' hb'
      have hcall := hl before s after he g' o'
      rw [← hcells before (fun x hx => by rw [he]; exact List.mem_append_left _ hx)] at hcall
      have hcall := hcall hg' hab'
      have hB0 : 0 < s.1 := by have := hcall.two_le; omega
      obtain ⟨f, e1, e2, e3, t, e4, e5⟩ := hcall.groups (hg'.validMesh (s.2 g' o')) hW hu' hgrid' (by
        intro h2n c hc
        simp only [Args.onMesh, List.getElem?_map, hb' h2n c hc, Option.map_some, Int.toNat_natCast])
      exact ⟨f, e1, e2, e3, place s.1 _ t, ⟨place_zero hB0, fun p => place_succ hB0, place_last hB0 hg'.pos e4, place_far hB0⟩,
        fun i hi j hj => (e5 i hi j hj).trans (place_iff hB0)⟩) o
  exact ⟨maps, gN, N, posN, h1, h2, by rw [h3, hcells levels (fun x hx => hx)], h4, h5, by rw [hwid] at h6; exact h6⟩

/-- **C107** (the groups) Each coarsest cell is made of consecutive cells of the row: a finest cell between two others of a
coarsest cell belongs to it, and two cells of it are less apart than the product of the values of `max_card`. -/
theorem C107_consecutive {P : Platform} {z : Int} (hz : z ≤ 0) (hW : LawfulLt W) {above : Prop}
    (levels : List (Nat × (MeshData W → Outs → Args W))) {g : MeshData W} (hg : GoodMesh g n) (hu : UniqueRows g.adjIdx g.adj)
    (hab : above → PrioritiesAbove g)
    (hgrid : IsGrid 1 ext n pos (Adj g.adjIdx g.adj))
    (hb : ∀ c < n, g.nBnd[c]? = some (sidesOut 1 ext (pos c) : Int)) (hw : ∀ s ∈ levels, 0 < s.1)
    (hl : ∀ before s after, levels = before ++ s :: after → ∀ g' o', GoodMesh g' (upDiv n (totalWidth before)) →
      (above → PrioritiesAbove g') → RowCall P s.1 (upDiv n (totalWidth before)) ((s.2 g' o').onMesh g') o') (o : Outs) :
    ∃ maps gN, runLevels P z (levels.map Prod.snd) g o = .ok (maps, gN) ∧
      (∀ i < n, ∀ j < n, ∀ k < n, pos i 0 ≤ pos j 0 → pos j 0 ≤ pos k 0 → composeMaps maps i = composeMaps maps k →
        composeMaps maps j = composeMaps maps i) ∧
      ∀ i < n, ∀ j < n, composeMaps maps i = composeMaps maps j → pos j 0 < pos i 0 + totalWidth levels := by
  obtain ⟨maps, gN, N, posN, h1, _, _, h4, h5, h6⟩ := C107_levels hz hW levels hg hu hab hgrid hb hw hl o
  refine ⟨maps, gN, h1, ?_, ?_⟩
  · intro i hi j hj k hk hij hjk he
    obtain ⟨c, hc, e⟩ := h5 i hi
    obtain ⟨d, hd, e'⟩ := h5 j hj
    have k1 := (h6 i hi j hj c d e e').1 hij
    have k2 := (h6 j hj k hk d c e' (by rw [← he]; exact e)).1 hjk
    rw [e, e', h4.inj d hd c hc (fun ax hax => by obtain rfl : ax = 0 := by omega
                                                  omega)]
  · intro i hi j hj he
    obtain ⟨c, hc, e⟩ := h5 i hi
    by_contra h
    have := (h6 i hi j hj c c e (by rw [← he]; exact e)).2 (by omega)
    omega

/-- **C107** (the end) If the product of the values of `max_card` is at least the number of cells, one coarse cell is left. -/
theorem C107_one_cell {P : Platform} {z : Int} (hz : z ≤ 0) (hW : LawfulLt W) {above : Prop}
    (levels : List (Nat × (MeshData W → Outs → Args W))) {g : MeshData W} (hg : GoodMesh g n) (hu : UniqueRows g.adjIdx g.adj)
    (hab : above → PrioritiesAbove g)
    (hgrid : IsGrid 1 ext n pos (Adj g.adjIdx g.adj))
    (hb : ∀ c < n, g.nBnd[c]? = some (sidesOut 1 ext (pos c) : Int)) (hw : ∀ s ∈ levels, 0 < s.1)
    (hl : ∀ before s after, levels = before ++ s :: after → ∀ g' o', GoodMesh g' (upDiv n (totalWidth before)) →
      (above → PrioritiesAbove g') → RowCall P s.1 (upDiv n (totalWidth before)) ((s.2 g' o').onMesh g') o')
    (hwide : n ≤ totalWidth levels) (o : Outs) :
    ∃ maps gN, runLevels P z (levels.map Prod.snd) g o = .ok (maps, gN) ∧ GoodMesh gN 1 ∧ ∀ i < n, composeMaps maps i = some 0 := by
  obtain ⟨maps, gN, N, posN, h1, h2, h3, _, h5, _⟩ := C107_levels hz hW levels hg hu hab hgrid hb hw hl o
  have hn := hg.pos
  obtain rfl : N = 1 := by
    rw [h3]
    unfold upDiv
    rw [show n + totalWidth levels - 1 = (n - 1) + totalWidth levels by omega, Nat.add_div_right _ (by omega),
      Nat.div_eq_of_lt (by omega)]
  refine ⟨maps, gN, h1, h2, fun i hi => ?_⟩
  obtain ⟨c, hc, e⟩ := h5 i hi
  obtain rfl : c = 0 := by omega
  exact e

/-! ## A concrete case: seven cells, groups of three and then of two -/

def exRow7Pos : List (List Nat) := [[3], [2], [4], [1], [5], [0], [6]]

def exRow7 : MeshData Int where
  adjIdx := [0, 2, 4, 6, 8, 10, 11, 12]
  adj := [1, 2, 0, 3, 0, 4, 1, 5, 2, 6, 3, 4]
  weights := [6, 4, 6, 2, 4, 7, 2, 5, 7, 3, 5, 3]
  volumes := [1, 2, 3, 1, 2, 1, 4]
  centers := [[5, 0], [1, 1], [2, 7], [3, 3], [0, 2], [4, 4], [6, 1]]
  priority := [3, 1, 4, 1, 5, 2, 6]
  nBnd := [0, 0, 0, 0, 0, 1, 1]

theorem exRow7_crs : ValidCRS 7 exRow7.adjIdx exRow7.adj := checkCRS_sound (by decide)

theorem exRow7_grid : IsGrid 1 (fun _ => 7) 7 (posOf exRow7Pos) (Adj exRow7.adjIdx exRow7.adj) :=
  isGrid_of exRow7_crs (by decide) (by decide) (by
    intro v hv
    have key : ∀ x < 7, ∃ c < 7, posOf exRow7Pos c 0 = x := by decide
    obtain ⟨c, hc, h0⟩ := key (v 0) (hv 0 (by omega))
    refine ⟨c, hc, fun ax hax => ?_⟩
    have : ax = 0 := by omega
    subst this
    exact h0) (by
    have key : ∀ c < 7, ∀ c' < 7, (c' ∈ rowOf exRow7.adjIdx exRow7.adj c ↔
        nextTo 1 (posOf exRow7Pos c) (posOf exRow7Pos c') = true) := by decide +kernel
    intro c hc c' hc'
    rw [key c hc c' hc', nextTo_iff])

theorem exRow7_good : GoodMesh exRow7 7 where
  pos := by decide
  crs := exRow7_crs
  sym := checkSym_sound exRow7_crs (by decide)
  uniq := Or.inl (checkUniq_sound exRow7_crs (by decide))
  connected := connected_of_smaller (checkSym_sound exRow7_crs (by decide)) (by
    have key : ∀ i < 7, 0 < i → ∃ j < i, j ∈ rowOf exRow7.adjIdx exRow7.adj i := by decide
    intro i h0 h3
    obtain ⟨j, hj, hij⟩ := key i h3 h0
    exact ⟨j, hj, adj_iff_rowOf.2 hij⟩)
  weights := rfl
  volumes := rfl
  centers := rfl
  priority := rfl
  nBnd := rfl
  bndPos := by decide
  coords := ⟨2, by decide⟩

def exRow7Levels : List (Nat × (MeshData Int → Outs → Args Int)) :=
  [(3, fun _ _ => { exRow6 with correction := false }), (2, fun _ _ => { exRow6 with maxCard := 2, correction := false })]

theorem exRow7Levels_ok (s : Nat × (MeshData Int → Outs → Args Int)) (hs : s ∈ exRow7Levels) (k : Nat) (g' : MeshData Int) (o' : Outs) :
    RowCall exPlatform s.1 k ((s.2 g' o').onMesh g') o' := by
  have : s = (3, fun _ _ => { exRow6 with correction := false }) ∨ s = (2, fun _ _ => { exRow6 with maxCard := 2, correction := false }) := by
    simpa [exRow7Levels] using hs
  rcases this with rfl | rfl
  · exact ⟨⟨Or.inl rfl, by show (1 : Int) < 2; decide, by show (2 : Int) ≤ 2; decide, by show (2 : Int) ≤ 3; decide,
      ⟨by show (1 : Int) ≤ 2; decide, by show (2 : Int) ≤ 4; decide⟩, by show (1 : Int) ≤ 2; decide, nofun, nofun,
      fun h => by rcases h with h | h <;> cases h⟩, Or.inl rfl, rfl, nofun⟩
  · exact ⟨⟨Or.inl rfl, by show (1 : Int) < 2; decide, by show (2 : Int) ≤ 2; decide, by show (2 : Int) ≤ 2; decide,
      ⟨by show (1 : Int) ≤ 2; decide, by show (2 : Int) ≤ 4; decide⟩, by show (1 : Int) ≤ 2; decide, nofun, nofun,
      fun h => by rcases h with h | h <;> cases h⟩, Or.inl rfl, rfl, nofun⟩

/-- seven cells become three and then two -/
example := C107_levels (P := exPlatform) (z := -100) (by decide) exLawful (above := False) exRow7Levels exRow7_good
  (checkUniq_sound exRow7_crs (by decide)) (fun h => h.elim) exRow7_grid
  (by unfold sidesOut; decide +kernel) (by decide) (fun before s after h g' o' _ _ =>
    exRow7Levels_ok s (by rw [h]; simp) _ g' o') ⟨[], [], []⟩

/-- a third level leaves one cell of the seven -/
example := C107_one_cell (P := exPlatform) (z := -100) (by decide) exLawful (above := False)
  (exRow7Levels ++ [(2, fun _ _ => { exRow6 with maxCard := 2, correction := false })]) exRow7_good
  (checkUniq_sound exRow7_crs (by decide)) (fun h => h.elim) exRow7_grid
  (by unfold sidesOut; decide +kernel) (by decide) (fun before s after h g' o' _ _ => exRow7Levels_ok s (by
    have hs : s ∈ exRow7Levels ++ [(2, fun _ _ => { exRow6 with maxCard := 2, correction := false })] := by rw [h]; simp
    rcases List.mem_append.1 hs with h | h
    · exact h
    · rw [List.mem_singleton.1 h]
      exact List.mem_cons_of_mem _ (List.mem_singleton.2 rfl)) _ g' o') (by decide) ⟨[], [], []⟩

end CoMMA
