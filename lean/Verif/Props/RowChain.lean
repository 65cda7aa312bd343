import Verif.Props.Rows
import Verif.Props.TileLevels
/-! # Levels that cut rows into consecutive groups -/

set_option linter.unusedSectionVars false

namespace CoMMA

variable {W : Type} [Num W] {n : Nat} {ext : Nat → Nat} {pos : Nat → Nat → Nat}

/-- `q` numbers, from `0` to `K - 1` and in their order, groups of consecutive places of a row of `n`; between places `w * e + x`
apart there are `e` ends of groups -/
structure RowCut (n K w x : Nat) (q : Nat → Nat) : Prop where
  zero : q 0 = 0
  step : ∀ p, q (p + 1) = q p ∨ q (p + 1) = q p + 1
  last : q (n - 1) + 1 = K
  far : ∀ p e, q p + e ≤ q (p + (w * e + x))

namespace RowCut

variable {K w x : Nat} {q : Nat → Nat}

theorem mono (hc : RowCut n K w x q) {a b : Nat} (h : a ≤ b) : q a ≤ q b := by
  induction b, h using Nat.le_induction with
  | base => exact Nat.le_refl _
  | succ b _ ih => rcases hc.step b with h | h <;> omega

theorem lt (hc : RowCut n K w x q) {p : Nat} (hp : p < n) : q p < K := by
  have h1 := hc.last
  have h2 := hc.mono (show p ≤ n - 1 by omega)
  omega

theorem apart (hc : RowCut n K w x q) (e : Nat) {a b : Nat} (h : a + (w * e + x) ≤ b) : q a + e ≤ q b :=
  Nat.le_trans (hc.far a e) (hc.mono h)

/-- every group has a place -/
theorem surj (hc : RowCut n K w x q) (hn : 0 < n) {v : Nat} (hv : v < K) : ∃ p < n, q p = v := by
  have h1 := hc.last
  have key : ∀ k, k ≤ n - 1 → v ≤ q k → ∃ p ≤ k, q p = v := by
    intro k
    induction k with
    | zero =>
      intro _ h
      rw [hc.zero] at h
      exact ⟨0, Nat.le_refl _, by rw [hc.zero]; omega⟩
    | succ k ih =>
      intro hk h
      by_cases h2 : v ≤ q k
      · obtain ⟨p, hp, e⟩ := ih (by omega) h2
        exact ⟨p, by omega, e⟩
      · refine ⟨k + 1, Nat.le_refl _, ?_⟩
        rcases hc.step k with h3 | h3 <;> omega
  obtain ⟨p, hp, e⟩ := key (n - 1) (Nat.le_refl _) (by omega)
  exact ⟨p, by omega, e⟩

end RowCut

/-- place of coarse cell `c` in the row of the coarse cells -/
def cutPos (q : Nat → Nat) (f : List Nat) (pos : Nat → Nat → Nat) (c _ax : Nat) : Nat := q (pos (f.idxOf c) 0)

theorem cutPos_eq {q : Nat → Nat} {f : List Nat} (hf : f.length = n)
    (hs : ∀ i < n, ∀ j < n, (f[i]? = f[j]? ↔ q (pos i 0) = q (pos j 0)))
    {i c : Nat} (hi : f[i]? = some c) : cutPos q f pos c 0 = q (pos i 0) := by
  have hc : c ∈ f := List.mem_of_getElem? hi
  have h1 : f.idxOf c < f.length := List.idxOf_lt_length_of_mem hc
  have h2 : f[f.idxOf c]? = some c := by rw [List.getElem?_eq_getElem h1, List.getElem_idxOf]
  have h3 : i < f.length := (List.getElem?_eq_some_iff.1 hi).1
  exact (hs _ (by omega) i (by omega)).1 (by rw [h2, hi])

/-- the groups of a row form a row -/
theorem IsGrid.cut {R R' : Nat → Nat → Prop} (hg : IsGrid 1 ext n pos R) (hn : 0 < n) {K w x : Nat} {q : Nat → Nat} (hcut : RowCut n K w x q)
    {f : List Nat} {N : Nat} (hf : f.length = n) (hN : ∀ k, k ∈ f ↔ k < N)
    (hs : ∀ i < n, ∀ j < n, (f[i]? = f[j]? ↔ q (pos i 0) = q (pos j 0)))
    (hR : ∀ k l, R' k l ↔ k ≠ l ∧ ∃ i j : Nat, f[i]? = some k ∧ f[j]? = some l ∧ R i j) :
    IsGrid 1 (fun _ => K) N (cutPos q f pos) R' := by
  have hL := row_length hg
  have hex : ∀ c < N, ∃ i < n, f[i]? = some c := by
    intro c hc
    obtain ⟨i, hi⟩ := List.mem_iff_getElem?.1 ((hN c).2 hc)
    exact ⟨i, by rw [← hf]; exact (List.getElem?_eq_some_iff.1 hi).1, hi⟩
  have hlt : ∀ i c : Nat, f[i]? = some c → i < n ∧ c < N := fun i c h =>
    ⟨by rw [← hf]; exact (List.getElem?_eq_some_iff.1 h).1, (hN c).1 (List.mem_of_getElem? h)⟩
  have hpe := fun (i c : Nat) (h : f[i]? = some c) => cutPos_eq hf hs h
  have hsame : ∀ i j c c' : Nat, f[i]? = some c → f[j]? = some c' → q (pos i 0) = q (pos j 0) → c = c' := by
    intro i j c c' hi hj h
    have := (hs i (hlt i c hi).1 j (hlt j c' hj).1).2 h
    rw [hi, hj] at this
    exact Option.some.inj this
  refine ⟨?_, ?_, ?_, ?_⟩
  · intro c hc ax hax
    obtain ⟨i, hi, hic⟩ := hex c hc
    obtain rfl : ax = 0 := by omega
    rw [hpe i c hic]
    have := hg.range i hi 0 (by omega)
    exact hcut.lt (by omega)
  · intro c hc c' hc' h
    obtain ⟨i, hi, hic⟩ := hex c hc
    obtain ⟨i', hi', hic'⟩ := hex c' hc'
    have := h 0 (by omega)
    rw [hpe i c hic, hpe i' c' hic'] at this
    exact hsame i i' c c' hic hic' this
  · intro v hv
    obtain ⟨p, hp, e⟩ := hcut.surj hn (hv 0 (by omega))
    obtain ⟨i, hi, hip⟩ := Row.get hg (v := p) (by omega)
    have hi' : i < f.length := by omega
    refine ⟨f[i], (hN _).1 (List.getElem_mem hi'), fun ax hax => ?_⟩
    obtain rfl : ax = 0 := by omega
    rw [hpe i _ (List.getElem?_eq_getElem hi'), hip, e]
  · intro c c'
    rw [hR]
    constructor
    · rintro ⟨hne, i, j, hi, hj, hij⟩
      refine ⟨(hlt i c hi).2, (hlt j c' hj).2, 0, by omega, ?_, fun b hb hb0 => by omega⟩
      obtain ⟨h1, h2, ax, hax, hstep, _⟩ := (hg.adj i j).1 hij
      obtain rfl : ax = 0 := by omega
      rw [hpe i c hi, hpe j c' hj]
      rcases hstep with h | h
      · have := hcut.step (pos i 0)
        rw [h] at this
        rcases this with h | h
        · exact absurd (hsame i j c c' hi hj h.symm) hne
        · exact Or.inl h.symm
      · have := hcut.step (pos j 0)
        rw [h] at this
        rcases this with h | h
        · exact absurd (hsame i j c c' hi hj h) hne
        · exact Or.inr h.symm
    · rintro ⟨hc, hc', ax, hax, hstep, _⟩
      obtain rfl : ax = 0 := by omega
      have key : ∀ c < N, ∀ c' < N, cutPos q f pos c 0 + 1 = cutPos q f pos c' 0 →
          ∃ i j : Nat, f[i]? = some c ∧ f[j]? = some c' ∧ i < n ∧ j < n ∧ pos i 0 + 1 = pos j 0 := by
        intro c hc c' hc' h
        obtain ⟨i, hi, hic⟩ := hex c hc
        obtain ⟨j, hj, hjc⟩ := hex c' hc'
        rw [hpe i c hic, hpe j c' hjc] at h
        have hjr := hg.range j hj 0 (by omega)
        have step : ∀ d, pos i 0 + d < n → q (pos i 0 + d) = q (pos i 0) + 1 →
            ∃ p, p + 1 < n ∧ q p = q (pos i 0) ∧ q (p + 1) = q (pos i 0) + 1 := by
          intro d
          induction d with
          | zero => intro _ h; simp at h
          | succ d ih =>
            intro hd h
            rcases hcut.step (pos i 0 + d) with h1 | h1
            · exact ih (by omega) (by rw [← h1]; exact h)
            · refine ⟨pos i 0 + d, by omega, ?_, h⟩
              rw [show pos i 0 + (d + 1) = pos i 0 + d + 1 by omega, h1] at h
              omega
        have hle : pos i 0 ≤ pos j 0 := by
          by_contra hlt
          have := hcut.mono (show pos j 0 ≤ pos i 0 by omega)
          omega
        obtain ⟨p, hp, e1, e2⟩ := step (pos j 0 - pos i 0) (by omega) (by
          rw [show pos i 0 + (pos j 0 - pos i 0) = pos j 0 by omega]; exact h.symm)
        obtain ⟨x, hx, hxp⟩ := Row.get hg (v := p) (by omega)
        obtain ⟨y, hy, hyp⟩ := Row.get hg (v := p + 1) (by omega)
        refine ⟨x, y, ?_, ?_, hx, hy, by omega⟩
        · rw [(hs x hx i hi).2 (by rw [hxp, e1]), hic]
        · rw [(hs y hy j hj).2 (by rw [hyp, e2, h]), hjc]
      refine ⟨fun h => by subst h; omega, ?_⟩
      rcases hstep with h | h
      · obtain ⟨i, j, h1, h2, h3, h4, h5⟩ := key c hc c' hc' h
        exact ⟨i, j, h1, h2, (hg.adj i j).2 ⟨h3, h4, 0, by omega, Or.inl h5, fun b hb hb0 => by omega⟩⟩
      · obtain ⟨j, i, h1, h2, h3, h4, h5⟩ := key c' hc' c hc h
        exact ⟨i, j, h2, h1, (hg.adj i j).2 ⟨h4, h3, 0, by omega, Or.inr h5, fun b hb hb0 => by omega⟩⟩

theorem sidesOut_one (u : Nat → Nat) : sidesOut 1 ext u = (if u 0 = 0 then 1 else 0) + (if u 0 + 1 = ext 0 then 1 else 0) := by
  simp [sidesOut]

/-- the number of sides of a group on the boundary is the largest number of its cells, if there are at least two groups -/
theorem sidesOut_cut {R : Nat → Nat → Prop} (hg : IsGrid 1 ext n pos R) {K w x : Nat} {q : Nat → Nat} (hcut : RowCut n K w x q)
    (h2 : 2 ≤ K) {i : Nat} (hi : i < n) {v : Nat → Nat} (hv : v 0 = q (pos i 0)) :
    (∀ j < n, q (pos j 0) = q (pos i 0) → sidesOut 1 ext (pos j) ≤ sidesOut 1 (fun _ => K) v) ∧
      ∃ j < n, q (pos j 0) = q (pos i 0) ∧ sidesOut 1 ext (pos j) = sidesOut 1 (fun _ => K) v := by
  have hL := row_length hg
  have h0 := hcut.zero
  have h1 := hcut.last
  have hend : ∀ p, p + 1 = ext 0 → q p + 1 = K := by
    intro p hp
    rw [show p = n - 1 by omega]; exact h1
  have hzero : ∀ p, p = 0 → q p = 0 := by
    intro p hp
    rw [hp]; exact h0
  simp only [sidesOut_one, hv]
  constructor
  · intro j hj hs
    have e1 := hend (pos j 0)
    have e2 := hzero (pos j 0)
    split_ifs <;> omega
  · by_cases c0 : q (pos i 0) = 0
    · obtain ⟨j, hj, e⟩ := Row.get hg (v := 0) (by omega)
      refine ⟨j, hj, by rw [e, h0, c0], ?_⟩
      have e1 := hend (pos j 0)
      rw [e] at e1 ⊢
      split_ifs <;> omega
    · by_cases c1 : q (pos i 0) + 1 = K
      · obtain ⟨j, hj, e⟩ := Row.get hg (v := n - 1) (by omega)
        refine ⟨j, hj, by rw [e]; omega, ?_⟩
        have e1 := hzero (pos j 0)
        rw [e] at e1 ⊢
        split_ifs <;> omega
      · refine ⟨i, hi, rfl, ?_⟩
        have e1 := hend (pos i 0)
        have e2 := hzero (pos i 0)
        split_ifs <;> omega

/-- the call cuts a row of `n` cells into `K` groups -/
def CutsRow (P : Platform) (a : Args W) (o : Outs) (n K w x : Nat) (pos : Nat → Nat → Nat) : Prop :=
  ∃ f : List Nat, agglomerateOneLevel P a o = (⟨f, o.linesIdx, o.lines⟩, .ok ()) ∧ f.length = n ∧ Contiguous f ∧
    ∃ q, RowCut n K w x q ∧ ∀ i < n, ∀ j < n, (f[i]? = f[j]? ↔ q (pos i 0) = q (pos j 0))

/-- number of cells of a row of `n` cells after the levels, if a level with the number `m` leaves `cnt m k` of `k` cells -/
def cellsAfter (cnt : Nat → Nat → Nat) (n : Nat) (levels : List (Nat × (MeshData W → Outs → Args W))) : Nat :=
  levels.foldl (fun k s => cnt s.1 k) n

/-- finest cells as far apart as this are in different cells after levels with these numbers -/
def widthOf (x : Nat) : List Nat → Nat
  | [] => 1
  | m :: r => m * widthOf x r + x

/-- levels that cut rows into consecutive groups -/
theorem cut_levels {P : Platform} {z : Int} (hz : z ≤ 0) (hW : LawfulLt W) {above : Prop} {cnt : Nat → Nat → Nat} {x : Nat}
    (levels : List (Nat × (MeshData W → Outs → Args W))) {g : MeshData W} (hg : GoodMesh g n) (hu : UniqueRows g.adjIdx g.adj)
    (hab : above → PrioritiesAbove g)
    (hgrid : IsGrid 1 ext n pos (Adj g.adjIdx g.adj))
    (hb : 2 ≤ n → ∀ c < n, g.nBnd[c]? = some (sidesOut 1 ext (pos c) : Int))
    (hl : ∀ before s after, levels = before ++ s :: after → ∀ g' o' ext' pos', GoodMesh g' (cellsAfter cnt n before) →
      UniqueRows g'.adjIdx g'.adj → (above → PrioritiesAbove g') → IsGrid 1 ext' (cellsAfter cnt n before) pos' (Adj g'.adjIdx g'.adj) →
      (2 ≤ cellsAfter cnt n before → ∀ c < cellsAfter cnt n before, g'.nBnd[c]? = some (sidesOut 1 ext' (pos' c) : Int)) →
      CutsRow P ((s.2 g' o').onMesh g') o' (cellsAfter cnt n before) (cnt s.1 (cellsAfter cnt n before)) s.1 x pos') (o : Outs) :
    ∃ maps gN N posN, runLevels P z (levels.map Prod.snd) g o = .ok (maps, gN) ∧ GoodMesh gN N ∧
      N = cellsAfter cnt n levels ∧ IsGrid 1 (fun _ => N) N posN (Adj gN.adjIdx gN.adj) ∧
      (∀ i < n, ∃ c < N, composeMaps maps i = some c) ∧
      ∀ i < n, ∀ j < n, ∀ c c', composeMaps maps i = some c → composeMaps maps j = some c' →
        (pos i 0 ≤ pos j 0 → posN c 0 ≤ posN c' 0) ∧ (pos i 0 + widthOf x (levels.map Prod.fst) ≤ pos j 0 → posN c 0 < posN c' 0) := by
  induction levels generalizing n ext pos g o with
  | nil =>
    have hL := row_length hgrid
    refine ⟨[], g, n, pos, rfl, hg, rfl, ?_, fun i hi => ⟨i, hi, rfl⟩, ?_⟩
    · refine ⟨fun c hc ax hax => ?_, hgrid.inj, fun v hv => hgrid.surj v fun ax hax => ?_, hgrid.adj⟩
      · obtain rfl : ax = 0 := by omega
        have := hgrid.range c hc 0 (by omega)
        omega
      · obtain rfl : ax = 0 := by omega
        have := hv 0 (by omega)
        omega
    · intro i hi j hj c c' h1 h2
      cases h1
      cases h2
      simp only [widthOf, List.map_nil]
      omega
  | cons s r ih =>
    have hn := hg.pos
    obtain ⟨f, h1, h2, ⟨N, hN⟩, q, hcut, h3⟩ := hl [] s r rfl g o ext pos hg hu hab hgrid hb
    change RowCut n (cnt s.1 n) s.1 x q at hcut
    change f.length = n at h2
    change ∀ i < n, ∀ j < n, (f[i]? = f[j]? ↔ q (pos i 0) = q (pos j 0)) at h3
    obtain ⟨g', h4, h5, h6, h7⟩ := C18_coarse_mesh hg h2 hN hz
    have hNpos := h5.pos
    have hcc : CoarseCount f N := ⟨fun k hk => (hN k).1 hk, (hN _).2 (by omega)⟩
    obtain ⟨g2, e2, hcrs, hsorted, _, hadj, _⟩ := C16_adjacency hg.validData h2 hcc z
    rw [h4] at e2; cases e2
    obtain ⟨g3, e3, _, hbnd⟩ := C43_boundary hg.validData h2 hcc (z := z) (fun b hb => by have := hg.bndPos b hb; omega)
    rw [h4] at e3; cases e3
    have hgrid' := hgrid.cut hn hcut h2 hN h3 hadj
    have hcount : cnt s.1 n = N := row_length hgrid'
    have hstep : ∀ i < n, ∃ c, f[i]? = some c ∧ c < N ∧ cutPos q f pos c 0 = q (pos i 0) := by
      intro i hi
      have hi' : i < f.length := by omega
      exact ⟨f[i], List.getElem?_eq_getElem hi', (hN _).1 (List.getElem_mem hi'), cutPos_eq h2 h3 (List.getElem?_eq_getElem hi')⟩
    have hb' : 2 ≤ N → ∀ c < N, g'.nBnd[c]? = some (sidesOut 1 (fun _ => cnt s.1 n) (cutPos q f pos c) : Int) := by
      intro h2N c hc
      have h2n : 2 ≤ n := by
        by_contra hlt
        have h8 := hcut.last
        rw [show n - 1 = 0 by omega, hcut.zero] at h8
        omega
      replace hb := hb h2n
      obtain ⟨b, hb1, hb2, hb3⟩ := hbnd c ((hN c).2 hc)
      obtain ⟨i, hi⟩ := List.mem_iff_getElem?.1 ((hN c).2 hc)
      have hin : i < n := by rw [← h2]; exact (List.getElem?_eq_some_iff.1 hi).1
      obtain ⟨hup, j, hj, hsame, hsides⟩ := sidesOut_cut hgrid hcut (by omega) hin (v := cutPos q f pos c)
        (cutPos_eq h2 h3 hi)
      rw [hb1]
      congr 1
      have hmem : ∀ x : Int, x ∈ entriesAt g.nBnd (cellsOf f c) ↔
          ∃ k < n, q (pos k 0) = q (pos i 0) ∧ x = (sidesOut 1 ext (pos k) : Int) := by
        intro x
        unfold entriesAt
        rw [List.mem_filterMap]
        constructor
        · rintro ⟨k, hk, hx⟩
          have hk := mem_cellsOf.1 hk
          have hkn : k < n := by rw [← h2]; exact (List.getElem?_eq_some_iff.1 hk).1
          rw [hb k hkn] at hx
          exact ⟨k, hkn, (h3 k hkn i hin).1 (by rw [hk, hi]), (Option.some.inj hx).symm⟩
        · rintro ⟨k, hk, hs, rfl⟩
          exact ⟨k, mem_cellsOf.2 (by rw [(h3 k hk i hin).2 hs, hi]), hb k hk⟩
      obtain ⟨k, hk, hks, hkb⟩ := (hmem b).1 hb2
      have h11 := hup k hk hks
      have h12 := hb3 _ ((hmem _).2 ⟨j, hj, hsame, rfl⟩)
      omega
    have hu' : UniqueRows g'.adjIdx g'.adj := by
      obtain ⟨g4, _, _, e4, _, hh, _⟩ := hcc.exists_ok hg.validData h2 z
      rw [h4] at e4; cases e4
      exact hh.uniq
    obtain ⟨maps, gN, M, posN, h8, h9, h10, h11, h12, h13⟩ := ih h5 hu' (fun h => h7 (hW.irrefl _) (hab h)) hgrid' hb' (by
        intro before x after he g2 o2 ext2 pos2
        have := hl (s :: before) x after (by rw [he]; rfl) g2 o2 ext2 pos2
        rw [← hcount]
        exact this) ⟨f, o.linesIdx, o.lines⟩
    refine ⟨f :: maps, gN, M, posN, ?_, h9, ?_, h11, ?_, ?_⟩
    · rw [List.map_cons]
      unfold runLevels
      rw [h1]
      simp only [h4, h8]
    · rw [h10, ← hcount]
      rfl
    · intro i hi
      obtain ⟨c, hc, hcN, _⟩ := hstep i hi
      obtain ⟨d, hd, e⟩ := h12 c hcN
      exact ⟨d, hd, by simp [composeMaps, hc, e]⟩
    · intro i hi j hj c c' hc hc'
      obtain ⟨d, e1, hd, e2⟩ := hstep i hi
      obtain ⟨d', e1', hd', e2'⟩ := hstep j hj
      simp only [composeMaps, e1, e1', Option.bind_some] at hc hc'
      obtain ⟨k1, k2⟩ := h13 d hd d' hd' c c' hc hc'
      rw [e2, e2'] at k1 k2
      refine ⟨fun h => k1 (hcut.mono h), fun h => k2 (hcut.apart _ ?_)⟩
      rw [List.map_cons] at h
      exact h

end CoMMA
