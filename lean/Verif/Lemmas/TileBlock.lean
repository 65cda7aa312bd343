import Verif.Lemmas.TileGrow
/-! # Square blocks of any width: surroundings of a corner, and the size chosen -/

set_option linter.unusedSectionVars false

namespace CoMMA.Tile

variable {W F : Type} [Num W]
variable {B : Nat} {ext : Nat → Nat} {n : Nat} {pos : Nat → Nat → Nat} {R : Nat → Nat → Prop}

/-- coordinate from an end of a block into the block -/
def co (B u v : Nat) : Int := if u % B = 0 then (v : Int) - u else (u : Int) - v

theorem co_iff {u v : Nat} (hB : 0 < B) (hu : u % B = 0 ∨ u % B + 1 = B) :
    v / B = u / B ↔ 0 ≤ co B u v ∧ co B u v < B := by
  have h1 := Nat.div_add_mod u B
  have h2 := Nat.div_add_mod v B
  have h3 := Nat.mod_lt v hB
  have hdiv : ∀ w, w < B → (B * (u / B) + w) / B = u / B := by
    intro w hw
    rw [Nat.add_comm, Nat.add_mul_div_left _ _ hB, Nat.div_eq_of_lt hw, Nat.zero_add]
  unfold co
  by_cases h0 : u % B = 0
  · rw [if_pos h0]
    constructor
    · intro h
      rw [h] at h2
      omega
    · rintro ⟨h4, h5⟩
      obtain ⟨w, hw⟩ : ∃ w, v = u + w := ⟨v - u, by omega⟩
      rw [show v = B * (u / B) + w by omega]
      exact hdiv w (by omega)
  · rw [if_neg h0]
    constructor
    · intro h
      rw [h] at h2
      omega
    · rintro ⟨h4, h5⟩
      obtain ⟨w, hw⟩ : ∃ w, v + w = u := ⟨u - v, by omega⟩
      rw [show v = B * (u / B) + (B - 1 - w) by omega]
      exact hdiv _ (by omega)

theorem tile_lt {u v e : Nat} (hB : 0 < B) (h : v / B = u / B) (hu : u < e) (he : e % B = 0) : v < e := by
  have h1 := Nat.div_add_mod e B
  have h2 := Nat.div_lt_of_lt_mul (m := u) (n := B) (k := e / B) (by omega)
  have h3 := Nat.div_add_mod v B
  have h4 := Nat.mod_lt v hB
  have h5 : B * (v / B + 1) ≤ B * (e / B) := Nat.mul_le_mul_left _ (by omega)
  rw [Nat.mul_add, Nat.mul_one] at h5
  omega

theorem l1_two (u v : Nat → Nat) : l1 2 u v = ((u 0 - v 0) + (v 0 - u 0)) + ((u 1 - v 1) + (v 1 - u 1)) := by
  unfold l1
  simp only [Finset.sum_range_succ, Finset.sum_range_zero, Nat.zero_add]

theorem same_two {u v : Nat → Nat} : SameTile B 2 u v ↔ u 0 / B = v 0 / B ∧ u 1 / B = v 1 / B := by
  constructor
  · intro h; exact ⟨h 0 (by omega), h 1 (by omega)⟩
  · rintro ⟨h0, h1⟩ ax hax
    have : ax = 0 ∨ ax = 1 := by omega
    rcases this with rfl | rfl
    · exact h0
    · exact h1

theorem nextTo_two {u v : Nat → Nat} : NextTo 2 u v ↔
    (u 0 = v 0 ∧ (u 1 + 1 = v 1 ∨ v 1 + 1 = u 1)) ∨ (u 1 = v 1 ∧ (u 0 + 1 = v 0 ∨ v 0 + 1 = u 0)) := by
  unfold NextTo
  constructor
  · rintro ⟨ax, hax, h1, h2⟩
    have : ax = 0 ∨ ax = 1 := by omega
    rcases this with rfl | rfl
    · exact Or.inr ⟨h2 1 (by omega) (by omega), h1⟩
    · exact Or.inl ⟨h2 0 (by omega) (by omega), h1⟩
  · rintro (⟨h1, h2⟩ | ⟨h1, h2⟩)
    · refine ⟨1, by omega, h2, fun b hb hne => ?_⟩
      rw [show b = 0 by omega]; exact h1
    · refine ⟨0, by omega, h2, fun b hb hne => ?_⟩
      rw [show b = 1 by omega]; exact h1

/-- the surroundings of a corner -/
theorem quad_of_corner {g : Graph W} (G : TileGrid B 2 ext n pos (Adj g.rowPtr g.colInd)) {agg : List Bool} {s order : Nat}
    {d : NMap Nat} (hl : agg.length = n) (hb : TileSet B 2 n pos (fun x => agg[x]? = some true)) (hs : agg[s]? = some false)
    (hc : TileCorner B 2 pos (Adj g.rowPtr g.colInd) (fun x => agg[x]? = some true) s)
    (hd : ∀ x k, d.find? x = some k ↔ IsDistance (FreeAdj g.rowPtr g.colInd agg) (· = s) x k ∧ 0 < k ∧ k < order)
    (ho : (∀ x, ReachableFrom (FreeAdj g.rowPtr g.colInd agg) (· = s) x → x = s ∨ x ∈ d.keySet) ∨ 2 * (B - 1) < order) :
    Quad g d B s (fun x => co B (pos s 0) (pos x 0)) (fun x => co B (pos s 1) (pos x 1)) ∧
    ∀ x, (Known d s x ∧ 0 ≤ co B (pos s 0) (pos x 0) ∧ co B (pos s 0) (pos x 0) < B ∧ 0 ≤ co B (pos s 1) (pos x 1) ∧
      co B (pos s 1) (pos x 1) < B) ↔ x < n ∧ SameTile B 2 (pos x) (pos s) := by
  have hB2 := G.two
  have hB0 : 0 < B := by omega
  have hsn := lt_of_agg hs hl
  have hend := hc.1
  have hfr : ∀ y < n, SameTile B 2 (pos y) (pos s) → agg[y]? = some false := by
    intro y hy hys
    refine free_of_not hl hy (fun hyt => ?_)
    have := hb y hy s hsn hys hyt
    simp only [hs] at this
    cases this
  have hfree : ∀ x ∈ d.keySet, agg[x]? = some false := by
    intro x hx
    rw [NMap.mem_keySet, NMap.mem_keys] at hx
    obtain ⟨k, hk⟩ := hx
    obtain ⟨⟨⟨w, rfl, hw⟩, _⟩, h1, _⟩ := (hd x k).1 hk
    cases hw with
    | nil => omega
    | step _ h => exact h.2
  have hkn : ∀ x, Known d s x → x < n := by
    rintro x (rfl | hx)
    · exact hsn
    · exact lt_of_agg (hfree x hx) hl
  have hdist : ∀ y < n, SameTile B 2 (pos y) (pos s) → y ≠ s → d.find? y = some (l1 2 (pos s) (pos y)) := by
    intro y hy hys hne
    have hdist : IsDistance (FreeAdj g.rowPtr g.colInd agg) (· = s) y (l1 2 (pos s) (pos y)) :=
      ⟨⟨s, rfl, G.walk (free := fun b => agg[b]? = some false) hsn hfr _ y hy hys rfl⟩,
        fun k w hw hwk => by subst hw; exact G.grid.l1_walk (fun a b h => h.1) hwk⟩
    have hpos : 0 < l1 2 (pos s) (pos y) := by
      by_contra h0
      have h0 : l1 2 (pos s) (pos y) = 0 := by omega
      apply hne
      rw [h0] at hdist
      exact (IsDistance.zero (S := (· = s))).1 hdist
    rcases ho with ho | ho
    · rcases ho y ⟨_, hdist.1⟩ with h1 | h1
      · exact absurd h1 hne
      · rw [NMap.mem_keySet, NMap.mem_keys] at h1
        obtain ⟨k, hk⟩ := h1
        rw [hdist.unique ((hd y k).1 hk).1]
        exact hk
    · refine (hd y _).2 ⟨hdist, hpos, ?_⟩
      obtain ⟨h0, h1⟩ := same_two.1 hys
      have e1 := lt_of_div hB0 h0
      have e2 := lt_of_div hB0 h0.symm
      have e3 := lt_of_div hB0 h1
      have e4 := lt_of_div hB0 h1.symm
      rw [l1_two]
      omega
  have hA := hend 0 (by omega)
  have hBb := hend 1 (by omega)
  have hsk : s ∉ d.keySet := by
    intro h
    rw [NMap.mem_keySet, NMap.mem_keys] at h
    obtain ⟨k, hk⟩ := h
    obtain ⟨h1, h2, _⟩ := (hd s k).1 hk
    have := h1.unique (IsDistance.zero.2 rfl)
    omega
  refine ⟨⟨?_, ?_, hsk, ?_, ?_, ?_, ?_, ?_, ?_⟩, ?_⟩
  · unfold co; split <;> omega
  · unfold co; split <;> omega
  · intro i j hi hj hij
    have key : ∀ ax < 2, ∀ i < B, ∃ v, v < ext ax ∧ v / B = pos s ax / B ∧ co B (pos s ax) v = i := by
      intro ax hax i hi
      have he := hend ax hax
      have hm := Nat.mod_le (pos s ax) B
      have : ∃ v, co B (pos s ax) v = i := by
        unfold co
        by_cases h0 : pos s ax % B = 0
        · refine ⟨pos s ax + i, ?_⟩; rw [if_pos h0]; omega
        · refine ⟨pos s ax - i, ?_⟩; rw [if_neg h0]; omega
      obtain ⟨v, hv⟩ := this
      have hvs := (co_iff hB0 he (v := v)).2 (by omega)
      exact ⟨v, tile_lt hB0 hvs (G.grid.range s hsn ax hax) (G.mult ax hax), hvs, hv⟩
    obtain ⟨v0, h01, h02, h03⟩ := key 0 (by omega) i hi
    obtain ⟨v1, h11, h12, h13⟩ := key 1 (by omega) j hj
    obtain ⟨x, hx, hxp⟩ := G.grid.surj (fun ax => if ax = 0 then v0 else v1) (by
      intro ax hax
      have : ax = 0 ∨ ax = 1 := by omega
      rcases this with rfl | rfl
      · simpa using h01
      · simpa using h11)
    have hx0 : pos x 0 = v0 := by simpa using hxp 0 (by omega)
    have hx1 : pos x 1 = v1 := by simpa using hxp 1 (by omega)
    refine ⟨x, ?_, by show co _ _ (pos x 0) = _; rw [hx0, h03], by show co _ _ (pos x 1) = _; rw [hx1, h13]⟩
    rw [hdist x hx (same_two.2 ⟨by rw [hx0]; exact h02, by rw [hx1]; exact h12⟩) ?_]
    · rw [l1_two, hx0, hx1]
      unfold co at h03 h13
      congr 1
      split at h03 <;> split at h13 <;> omega
    · rintro rfl
      rw [← hx0] at h03
      rw [← hx1] at h13
      unfold co at h03 h13
      split at h03 <;> split at h13 <;> omega
  · intro x y hx hy h0 h1
    apply G.grid.inj x (hkn x hx) y (hkn y hy)
    intro ax hax
    have : ax = 0 ∨ ax = 1 := by omega
    unfold co at h0 h1
    rcases this with rfl | rfl
    · split at h0 <;> omega
    · split at h1 <;> omega
  · intro x y hx hy
    rw [← adj_iff_rowOf, G.grid.adj, nextTo_two]
    have h1 := hkn x hx
    have h2 := hkn y hy
    simp only [h1, h2, true_and]
    unfold co
    split <;> split <;> omega
  · intro x hx h0 h1 hxa
    have hxf := hfree x hx
    have hxn := lt_of_agg hxf hl
    have hb1 := (co_iff hB0 hBb).2 ⟨h0, h1⟩
    obtain ⟨y, hy, hy1, hy2⟩ := G.grid.move (a := 0) hxn (G.grid.range s hsn 0 (by omega))
    have hy1 := hy1 (by omega)
    have hy2 := hy2 1 (by omega) (by omega)
    have hno : pos x 0 / B ≠ pos s 0 / B := by
      intro h
      have := (co_iff hB0 hA).1 h
      omega
    have := G.near hb hsn hc (y := y) (x := x) (a := 0) (same_two.2 ⟨by rw [hy1], by rw [hy2]; exact hb1⟩) (by omega) hy1 hxn
      (fun b hb hne => by rw [show b = 1 by omega]; exact hy2) (by unfold co at hxa; rw [hy1]; split at hxa <;> omega)
      (by rw [hy1]; exact hno)
    simp only [hxf] at this
    cases this
  · intro x hx h0 h1 hxb
    have hxf := hfree x hx
    have hxn := lt_of_agg hxf hl
    have hb1 := (co_iff hB0 hA).2 ⟨h0, h1⟩
    obtain ⟨y, hy, hy1, hy2⟩ := G.grid.move (a := 1) hxn (G.grid.range s hsn 1 (by omega))
    have hy1 := hy1 (by omega)
    have hy2 := hy2 0 (by omega) (by omega)
    have hno : pos x 1 / B ≠ pos s 1 / B := by
      intro h
      have := (co_iff hB0 hBb).1 h
      omega
    have := G.near hb hsn hc (y := y) (x := x) (a := 1) (same_two.2 ⟨by rw [hy2]; exact hb1, by rw [hy1]⟩) (by omega) hy1 hxn
      (fun b hb hne => by rw [show b = 0 by omega]; exact hy2) (by unfold co at hxb; rw [hy1]; split at hxb <;> omega)
      (by rw [hy1]; exact hno)
    simp only [hxf] at this
    cases this
  · intro x k hk
    obtain ⟨⟨⟨w, rfl, hw⟩, _⟩, _⟩ := (hd x k).1 hk
    have h1 := G.grid.l1_walk (fun a b h => h.1) hw
    rw [l1_two] at h1
    unfold co
    split <;> split <;> omega
  · intro x
    constructor
    · rintro ⟨h1, h2, h3, h4, h5⟩
      exact ⟨hkn x h1, same_two.2 ⟨(co_iff hB0 hA).2 ⟨h2, h3⟩, (co_iff hB0 hBb).2 ⟨h4, h5⟩⟩⟩
    · rintro ⟨h1, h2⟩
      obtain ⟨h3, h4⟩ := same_two.1 h2
      obtain ⟨h5, h6⟩ := (co_iff hB0 hA).1 h3
      obtain ⟨h7, h8⟩ := (co_iff hB0 hBb).1 h4
      refine ⟨?_, h5, h6, h7, h8⟩
      by_cases hxs : x = s
      · exact Or.inl hxs
      · exact Or.inr (mem_keySet_of (hdist x h1 h2 hxs))

end CoMMA.Tile
