import Verif.Props.RowsCorrected
/-! # C109: several levels of a row of cells, with correction of single cells -/

set_option linter.unusedSectionVars false

namespace CoMMA

variable {W : Type} [Num W] {n m : Nat} {ext : Nat → Nat} {pos : Nat → Nat → Nat}

open Row

/-- a call without lines that makes groups of `m` cells and corrects single cells only -/
structure RowCorrectedCall (P : Platform) (m : Nat) (a : Args W) (o : Outs) : Prop where
  params : ValidParams P a
  off : WithoutLines a o
  card : a.maxCard = m
  correction : a.correction = true
  singles : CorrectsSingletons a

/-- one level: C106 or C108 -/
theorem RowCorrectedCall.cuts {P : Platform} {a : Args W} {o : Outs} (h : RowCorrectedCall P m a o) (hm : ValidMesh a n)
    (hW : LawfulLt W) (hu : UniqueRows a.rowPtr a.colInd) (hg : IsGrid 1 ext n pos (Adj a.rowPtr a.colInd))
    (hb : 2 ≤ n → ∀ c < n, a.nBnd[c]? = some (sidesOut 1 ext (pos c))) :
    CutsRow P a o n (groupsOf m n) m 1 pos := by
  have i1 := h.params.minCard
  have i2 := h.params.goalCard
  have i3 := h.params.maxCard
  have i4 := h.card
  have hm2 : 2 ≤ m := by omega
  have hm0 : 0 < m := by omega
  have hn := hm.pos
  by_cases h2 : 2 ≤ n
  · by_cases hone : n % m = 1
    · obtain ⟨f, e1, e2, e3, t, e4, e5⟩ := C108_rows hm h.params hW hu h.off h.card h.correction hone (by omega) hg (hb h2)
      refine ⟨f, e1, e2, e3, rowGroup m (m + 1) t, ⟨group_zero hm0 (by omega), fun p => group_succ hm0 (by omega), ?_,
        group_far_one hm0⟩, e5⟩
      unfold groupsOf
      rw [if_pos ⟨hone, by omega⟩]
      -- the groups after that with the cell left
      have hd := Nat.div_add_mod n m
      rw [hone] at hd
      obtain ⟨k, hk⟩ : ∃ k, n / m = t + 1 + k := by
        refine Nat.exists_eq_add_of_le ?_
        rw [Nat.le_div_iff_mul_le hm0, Nat.add_mul]
        omega
      have hn' : n = t * m + (m + 1) + m * k := by
        rw [hk, Nat.mul_add, Nat.mul_add, Nat.mul_comm m t] at hd
        omega
      have hl := group_last (m := m) (r := m + 1) (t := t) (k := k) hm0 (by omega)
      rw [← hn'] at hl
      rw [hl, hk]
      omega
    · have hleft : a.correction = true → n % m = 0 ∨ a.singThresh < (n % m : Nat) ∨ a.minCard ≤ (n % m : Nat) := by
        intro hc
        have := h.singles hc
        omega
      obtain ⟨f, e1, e2, e3, t, e4, e5⟩ := C106_rows hm h.params hW hu h.off h.card hleft hg (hb h2)
      refine ⟨f, e1, e2, e3, place m n t, ⟨place_zero hm0, fun p => place_succ hm0, ?_, place_far_one hm0⟩,
        fun i hi j hj => (e5 i hi j hj).trans (place_iff hm0)⟩
      unfold groupsOf
      rw [if_neg (fun h => hone h.1)]
      exact place_last hm0 hn e4
  · obtain rfl : n = 1 := by omega
    obtain ⟨f, h3, h4⟩ := C01_total (P := P) (o := o) hm h.params h.singles h.off
    have hcon := C02_contiguous (P := P) (o := o) hm h.params h.singles h.off
    rw [h3] at hcon
    have hmod : 1 % m = 1 := Nat.mod_eq_of_lt (by omega)
    refine ⟨f, h3, h4, hcon, place m 1 0, ⟨place_zero hm0, fun p => place_succ hm0, ?_, place_far_one hm0⟩, fun i hi j hj => ?_⟩
    · unfold groupsOf
      rw [if_neg (fun h => by omega)]
      exact place_last hm0 hn (by omega)
    · obtain rfl : i = 0 := by omega
      obtain rfl : j = 0 := by omega
      exact ⟨fun _ => rfl, fun _ => rfl⟩

theorem widthOf_one (l : List Nat) : widthOf 1 l = reach l := by
  induction l with
  | nil => rfl
  | cons m r ih => simp [widthOf, reach, ih, Nat.add_comm]

/-- **C109** Several levels of a row of any number of cells with correction of single cells: the calls return and the coarsest mesh
is a row. Each level leaves one coarse cell per `max_card` cells, and one with the cells left if these are at least two or all of
the row. The coarsest cells follow each other in the row as their finest cells do, and none of them holds two finest cells that are
as far from each other as `reach` of the values of `max_card`. -/
theorem C109_levels {P : Platform} {z : Int} (hz : z ≤ 0) (hW : LawfulLt W) {above : Prop}
    (levels : List (Nat × (MeshData W → Outs → Args W))) {g : MeshData W} (hg : GoodMesh g n) (hu : UniqueRows g.adjIdx g.adj)
    (hab : above → PrioritiesAbove g)
    (hgrid : IsGrid 1 ext n pos (Adj g.adjIdx g.adj))
    (hb : ∀ c < n, g.nBnd[c]? = some (sidesOut 1 ext (pos c) : Int))
    (hl : ∀ s ∈ levels, ∀ g' o' n', GoodMesh g' n' → (above → PrioritiesAbove g') →
      RowCorrectedCall P s.1 ((s.2 g' o').onMesh g') o') (o : Outs) :
    ∃ maps gN N posN, runLevels P z (levels.map Prod.snd) g o = .ok (maps, gN) ∧ GoodMesh gN N ∧
      N = levels.foldl (fun k s => groupsOf s.1 k) n ∧ IsGrid 1 (fun _ => N) N posN (Adj gN.adjIdx gN.adj) ∧
      (∀ i < n, ∃ c < N, composeMaps maps i = some c) ∧
      ∀ i < n, ∀ j < n, ∀ c c', composeMaps maps i = some c → composeMaps maps j = some c' →
        (pos i 0 ≤ pos j 0 → posN c 0 ≤ posN c' 0) ∧
        (pos i 0 + reach (levels.map Prod.fst) ≤ pos j 0 → posN c 0 < posN c' 0) := by
  rw [← widthOf_one]
  exact cut_levels hz hW (cnt := groupsOf) (x := 1) levels hg hu hab hgrid (fun _ => hb) (by
    intro before s after he g' o' ext' pos' hg' hu' hab' hgrid' hb'
    exact (hl s (by rw [he]; simp) g' o' _ hg' hab').cuts (hg'.validMesh (s.2 g' o')) hW hu' hgrid' (by
      intro h2n c hc
      simp only [Args.onMesh, List.getElem?_map, hb' h2n c hc, Option.map_some, Int.toNat_natCast])) o

/-- **C109** (the groups) Each coarsest cell is made of consecutive cells of the row, at most `reach` of the values of `max_card`. -/
theorem C109_consecutive {P : Platform} {z : Int} (hz : z ≤ 0) (hW : LawfulLt W) {above : Prop}
    (levels : List (Nat × (MeshData W → Outs → Args W))) {g : MeshData W} (hg : GoodMesh g n) (hu : UniqueRows g.adjIdx g.adj)
    (hab : above → PrioritiesAbove g)
    (hgrid : IsGrid 1 ext n pos (Adj g.adjIdx g.adj))
    (hb : ∀ c < n, g.nBnd[c]? = some (sidesOut 1 ext (pos c) : Int))
    (hl : ∀ s ∈ levels, ∀ g' o' n', GoodMesh g' n' → (above → PrioritiesAbove g') →
      RowCorrectedCall P s.1 ((s.2 g' o').onMesh g') o') (o : Outs) :
    ∃ maps gN, runLevels P z (levels.map Prod.snd) g o = .ok (maps, gN) ∧
      (∀ i < n, ∀ j < n, ∀ k < n, pos i 0 ≤ pos j 0 → pos j 0 ≤ pos k 0 → composeMaps maps i = composeMaps maps k →
        composeMaps maps j = composeMaps maps i) ∧
      ∀ i < n, ∀ j < n, composeMaps maps i = composeMaps maps j → pos j 0 < pos i 0 + reach (levels.map Prod.fst) := by
  obtain ⟨maps, gN, N, posN, h1, _, _, h4, h5, h6⟩ := C109_levels hz hW levels hg hu hab hgrid hb hl o
  refine ⟨maps, gN, h1, ?_, ?_⟩
  · intro i hi j hj k hk hij hjk he
    obtain ⟨c, hc, e⟩ := h5 i hi
    obtain ⟨d, hd, e'⟩ := h5 j hj
    have k1 := (h6 i hi j hj c d e e').1 hij
    have k2 := (h6 j hj k hk d c e' (by rw [← he]; exact e)).1 hjk
    rw [e, e', h4.inj d hd c hc (fun ax hax => by obtain rfl : ax = 0 := by omega
                                                  omega)]
  · intro i hi j hj he
    obtain ⟨c, hc, e⟩ := h5 i hi
    by_contra h
    have := (h6 i hi j hj c c e (by rw [← he]; exact e)).2 (by omega)
    omega

/-- a level at least halves the number of cells -/
theorem groupsOf_le {m k : Nat} (hm : 2 ≤ m) : groupsOf m k ≤ upDiv k 2 := by
  have h1 : k / m ≤ k / 2 := Nat.div_le_div_left hm (by omega)
  have h2 : upDiv k m ≤ upDiv k 2 := by
    rcases Nat.eq_zero_or_pos k with rfl | hk
    · unfold upDiv
      rw [Nat.div_eq_of_lt (by omega)]
    · have h3 : (k - 1) / m ≤ (k - 1) / 2 := Nat.div_le_div_left hm (by omega)
      unfold upDiv
      rw [show k + m - 1 = (k - 1) + m by omega, Nat.add_div_right _ (by omega)]
      omega
  unfold groupsOf
  unfold upDiv at h2 ⊢
  split_ifs <;> omega

theorem foldl_groupsOf_le {levels : List (Nat × (MeshData W → Outs → Args W))} (h : ∀ s ∈ levels, 2 ≤ s.1) (k : Nat)
    (hk : k ≤ 2 ^ levels.length) : levels.foldl (fun k s => groupsOf s.1 k) k ≤ 1 := by
  induction levels generalizing k with
  | nil => simpa using hk
  | cons s r ih =>
    rw [List.foldl_cons]
    refine ih (fun x hx => h x (List.mem_cons_of_mem _ hx)) _ (Nat.le_trans (groupsOf_le (h s (by simp))) ?_)
    rw [List.length_cons, Nat.pow_succ] at hk
    unfold upDiv
    omega

/-- **C109** (the end) As many levels as halvings take a row to one cell lead to one coarse cell, whatever their values of
`max_card`. -/
theorem C109_one_cell {P : Platform} {z : Int} (hz : z ≤ 0) (hW : LawfulLt W) {above : Prop}
    (levels : List (Nat × (MeshData W → Outs → Args W))) {g : MeshData W} (hg : GoodMesh g n) (hu : UniqueRows g.adjIdx g.adj)
    (hab : above → PrioritiesAbove g)
    (hgrid : IsGrid 1 ext n pos (Adj g.adjIdx g.adj))
    (hb : ∀ c < n, g.nBnd[c]? = some (sidesOut 1 ext (pos c) : Int))
    (hl : ∀ s ∈ levels, ∀ g' o' n', GoodMesh g' n' → (above → PrioritiesAbove g') →
      RowCorrectedCall P s.1 ((s.2 g' o').onMesh g') o') (hlen : n ≤ 2 ^ levels.length) (o : Outs) :
    ∃ maps gN, runLevels P z (levels.map Prod.snd) g o = .ok (maps, gN) ∧ GoodMesh gN 1 ∧ ∀ i < n, composeMaps maps i = some 0 := by
  obtain ⟨maps, gN, N, posN, h1, h2, h3, _, h5, _⟩ := C109_levels hz hW levels hg hu hab hgrid hb hl o
  have hle := foldl_groupsOf_le (levels := levels) (fun s hs => by
    have h := hl s hs g o n hg hab
    have i1 := h.params.minCard
    have i2 := h.params.goalCard
    have i3 := h.params.maxCard
    have i4 := h.card
    omega) n hlen
  have hN := h2.pos
  obtain rfl : N = 1 := by omega
  refine ⟨maps, gN, h1, h2, fun i hi => ?_⟩
  obtain ⟨c, hc, e⟩ := h5 i hi
  obtain rfl : c = 0 := by omega
  exact e

theorem foldl_groupsOf_reach {levels : List (Nat × (MeshData W → Outs → Args W))} (h : ∀ s ∈ levels, 2 ≤ s.1) :
    levels.foldl (fun k s => groupsOf s.1 k) (reach (levels.map Prod.fst)) = 1 := by
  induction levels with
  | nil => rfl
  | cons s r ih =>
    have hs := h s (by simp)
    have hpos : 0 < reach (r.map Prod.fst) := by
      cases r with
      | nil => exact Nat.one_pos
      | cons _ _ => simp only [List.map_cons, reach]; omega
    have hstep : groupsOf s.1 (reach ((s :: r).map Prod.fst)) = reach (r.map Prod.fst) := by
      rw [List.map_cons, reach]
      unfold groupsOf
      have := Nat.mul_pos (show 0 < s.1 by omega) hpos
      rw [if_pos ⟨by rw [Nat.add_mul_mod_self_left, Nat.mod_eq_of_lt (by omega)], by omega⟩,
        Nat.add_mul_div_left _ _ (by omega), Nat.div_eq_of_lt (by omega), Nat.zero_add]
    rw [List.foldl_cons, hstep]
    exact ih fun x hx => h x (List.mem_cons_of_mem _ hx)

/-- **C109** (the bound is reached) The levels make one coarse cell of all the cells of a row of `reach` cells. -/
theorem C109_reached {P : Platform} {z : Int} (hz : z ≤ 0) (hW : LawfulLt W) {above : Prop}
    (levels : List (Nat × (MeshData W → Outs → Args W))) {g : MeshData W} (hg : GoodMesh g n) (hu : UniqueRows g.adjIdx g.adj)
    (hab : above → PrioritiesAbove g)
    (hgrid : IsGrid 1 ext n pos (Adj g.adjIdx g.adj))
    (hb : ∀ c < n, g.nBnd[c]? = some (sidesOut 1 ext (pos c) : Int))
    (hl : ∀ s ∈ levels, ∀ g' o' n', GoodMesh g' n' → (above → PrioritiesAbove g') →
      RowCorrectedCall P s.1 ((s.2 g' o').onMesh g') o') (hlen : n = reach (levels.map Prod.fst)) (o : Outs) :
    ∃ maps gN, runLevels P z (levels.map Prod.snd) g o = .ok (maps, gN) ∧ GoodMesh gN 1 ∧ ∀ i < n, composeMaps maps i = some 0 := by
  obtain ⟨maps, gN, N, posN, h1, h2, h3, _, h5, _⟩ := C109_levels hz hW levels hg hu hab hgrid hb hl o
  have hone := foldl_groupsOf_reach (levels := levels) (fun s hs => by
    have h := hl s hs g o n hg hab
    have i1 := h.params.minCard
    have i2 := h.params.goalCard
    have i3 := h.params.maxCard
    have i4 := h.card
    omega)
  rw [← hlen] at hone
  obtain rfl : N = 1 := h3.trans hone
  refine ⟨maps, gN, h1, h2, fun i hi => ?_⟩
  obtain ⟨c, hc, e⟩ := h5 i hi
  obtain rfl : c = 0 := by omega
  exact e

/-! ## A concrete case: seven cells, groups of three and then of two -/

def exRow7Corrected : List (Nat × (MeshData Int → Outs → Args Int)) :=
  [(3, fun _ _ => { exRow6 with correction := true, singThresh := 1 }), (2, fun _ _ => { exRow6 with maxCard := 2, correction := true, singThresh := 1 })]

theorem exRow7Corrected_ok (s : Nat × (MeshData Int → Outs → Args Int)) (hs : s ∈ exRow7Corrected) (g' : MeshData Int) (o' : Outs) :
    RowCorrectedCall exPlatform s.1 ((s.2 g' o').onMesh g') o' := by
  have : s = (3, fun _ _ => { exRow6 with correction := true, singThresh := 1 }) ∨
      s = (2, fun _ _ => { exRow6 with maxCard := 2, correction := true, singThresh := 1 }) := by
    simpa [exRow7Corrected] using hs
  rcases this with rfl | rfl
  · exact ⟨⟨Or.inl rfl, by show (1 : Int) < 2; decide, by show (2 : Int) ≤ 2; decide, by show (2 : Int) ≤ 3; decide,
      ⟨by show (1 : Int) ≤ 2; decide, by show (2 : Int) ≤ 4; decide⟩, by show (1 : Int) ≤ 1; decide, nofun, nofun,
      fun h => by rcases h with h | h <;> cases h⟩, Or.inl rfl, rfl, rfl, fun _ => Or.inl rfl⟩
  · exact ⟨⟨Or.inl rfl, by show (1 : Int) < 2; decide, by show (2 : Int) ≤ 2; decide, by show (2 : Int) ≤ 2; decide,
      ⟨by show (1 : Int) ≤ 2; decide, by show (2 : Int) ≤ 4; decide⟩, by show (1 : Int) ≤ 1; decide, nofun, nofun,
      fun h => by rcases h with h | h <;> cases h⟩, Or.inl rfl, rfl, rfl, fun _ => Or.inl rfl⟩

/-- seven cells become two and then one -/
example := C109_levels (P := exPlatform) (z := -100) (by decide) exLawful (above := False) exRow7Corrected exRow7_good
  (checkUniq_sound exRow7_crs (by decide)) (fun h => h.elim) exRow7_grid
  (by unfold sidesOut; decide +kernel) (fun s hs g' o' _ _ _ => exRow7Corrected_ok s hs g' o') ⟨[], [], []⟩

/-- three levels lead from seven cells to one -/
example := C109_one_cell (P := exPlatform) (z := -100) (by decide) exLawful (above := False)
  (exRow7Corrected ++ [(2, fun _ _ => { exRow6 with maxCard := 2, correction := true, singThresh := 1 })]) exRow7_good
  (checkUniq_sound exRow7_crs (by decide)) (fun h => h.elim) exRow7_grid
  (by unfold sidesOut; decide +kernel) (fun s hs g' o' _ _ _ => exRow7Corrected_ok s (by
    rcases List.mem_append.1 hs with h | h
    · exact h
    · rw [List.mem_singleton.1 h]
      exact List.mem_cons_of_mem _ (List.mem_singleton.2 rfl)) g' o') (by decide) ⟨[], [], []⟩

/-- all seven cells in one coarse cell, after two levels with `max_card` = 2 -/
example := C109_reached (P := exPlatform) (z := -100) (by decide) exLawful (above := False)
  (List.replicate 2 (2, fun _ _ => { exRow6 with maxCard := 2, correction := true, singThresh := 1 })) exRow7_good
  (checkUniq_sound exRow7_crs (by decide)) (fun h => h.elim) exRow7_grid
  (by unfold sidesOut; decide +kernel) (fun s hs g' o' _ _ _ => exRow7Corrected_ok s (by
    rw [List.eq_of_mem_replicate hs]
    exact List.mem_cons_of_mem _ (List.mem_singleton.2 rfl)) g' o') (by decide) ⟨[], [], []⟩

end CoMMA
