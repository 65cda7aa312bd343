import Mathlib.Tactic.Ring
import Verif.Spec.Tile
import Verif.Lemmas.GridRun
/-! # Grids: blocks of any width, corners and distances -/

namespace CoMMA.Tile

theorem _root_.CoMMA.SameTile.rfl' {B D : Nat} {u : Nat → Nat} : SameTile B D u u := fun _ _ => rfl
theorem _root_.CoMMA.SameTile.symm {B D : Nat} {u v : Nat → Nat} (h : SameTile B D u v) : SameTile B D v u :=
  fun a ha => (h a ha).symm
theorem _root_.CoMMA.SameTile.trans {B D : Nat} {u v w : Nat → Nat} (h : SameTile B D u v) (h' : SameTile B D v w) :
    SameTile B D u w := fun a ha => (h a ha).trans (h' a ha)

/-- a cell at an end of its block along each axis -/
def AtEnd (B D : Nat) (u : Nat → Nat) : Prop := ∀ ax < D, u ax % B = 0 ∨ u ax % B + 1 = B

theorem div_between {B u v w : Nat} (h1 : u ≤ v) (h2 : v ≤ w) (h : u / B = w / B) : v / B = u / B := by
  have := Nat.div_le_div_right (c := B) h1
  have := Nat.div_le_div_right (c := B) h2
  omega

/-- the end of a block -/
theorem cross {B u : Nat} (hB : 0 < B) (h : u / B ≠ (u + 1) / B) : u % B + 1 = B ∧ (u + 1) % B = 0 := by
  have h1 := Nat.div_add_mod u B
  have h2 := Nat.mod_lt u hB
  by_cases he : u % B + 1 = B
  · refine ⟨he, ?_⟩
    have : u + 1 = B * (u / B + 1) := by rw [Nat.mul_add]; omega
    rw [this]
    exact Nat.mul_mod_right _ _
  · exfalso
    apply h
    have e : (u + 1) / B = (u % B + 1) / B + u / B := by
      rw [← Nat.add_mul_div_left _ _ hB]
      congr 1
      omega
    rw [e, Nat.div_eq_of_lt (show u % B + 1 < B by omega), Nat.zero_add]

/-- the last cell of an axis is at the end of a block -/
theorem last_end {B e u : Nat} (hB : 0 < B) (h : e % B = 0) (hu : u + 1 = e) : u % B + 1 = B := by
  have h1 := Nat.div_add_mod u B
  have h2 := Nat.mod_lt u hB
  by_contra hne
  have : (u + 1) % B = u % B + 1 := by
    rw [show u + 1 = (u % B + 1) + B * (u / B) by omega, Nat.add_mul_mod_self_left, Nat.mod_eq_of_lt (by omega)]
  rw [hu, h] at this
  omega

/-- a grid with a multiple of `B` cells along each axis -/
structure TileGrid (B D : Nat) (ext : Nat → Nat) (n : Nat) (pos : Nat → Nat → Nat) (R : Nat → Nat → Prop) : Prop where
  grid : IsGrid D ext n pos R
  mult : ∀ ax < D, ext ax % B = 0
  two : 2 ≤ B

variable {B D : Nat} {ext : Nat → Nat} {n : Nat} {pos : Nat → Nat → Nat} {R : Nat → Nat → Prop}

/-- inside a free block, cells are reached along the axes -/
theorem TileGrid.walk (G : TileGrid B D ext n pos R) {free : Nat → Prop} {s : Nat} (hs : s < n)
    (hf : ∀ y < n, SameTile B D (pos y) (pos s) → free y) : ∀ (k y : Nat), y < n → SameTile B D (pos y) (pos s) →
      l1 D (pos s) (pos y) = k → Walk (fun a b => R a b ∧ free b) k s y := by
  intro k
  induction k with
  | zero =>
    intro y hy _ h0
    have : s = y := by
      apply G.grid.inj s hs y hy
      intro a ha
      by_contra hne
      have h1 : ((pos s a - pos y a) + (pos y a - pos s a)) ≤ l1 D (pos s) (pos y) :=
        Finset.single_le_sum (f := fun ax => (pos s ax - pos y ax) + (pos y ax - pos s ax)) (fun _ _ => Nat.zero_le _)
          (Finset.mem_range.2 ha)
      omega
    subst this
    exact .nil _
  | succ k ih =>
    intro y hy hb hk
    obtain ⟨a, ha, hne⟩ := l1_pos (D := D) (u := pos s) (v := pos y) (by omega)
    have hyr := G.grid.range y hy a ha
    have hsr := G.grid.range s hs a ha
    obtain ⟨c, hc, h1, h2⟩ := G.grid.move (a := a) (v := if pos s a < pos y a then pos y a - 1 else pos y a + 1) hy
      (by split <;> omega)
    have h1 := h1 ha
    have hab := hb a ha
    have hcb : SameTile B D (pos c) (pos s) := by
      intro b hb'
      by_cases hba : b = a
      · subst hba
        rw [h1]
        split
        · exact div_between (by omega) (by omega) hab.symm
        · rw [div_between (u := pos y b) (w := pos s b) (by omega) (by omega) hab]; exact hab
      · rw [h2 b hb' hba]; exact hb b hb'
    have hch := l1_change (s := pos s) (u := pos c) (v := pos y) ha h2
    have := ih c hc hcb (by rw [h1] at hch; split at hch <;> omega)
    refine .step this ⟨(G.grid.adj c y).2 ⟨hc, hy, a, ha, ?_, h2⟩, hf y hy hb⟩
    rw [h1]
    split <;> omega

/-- covered cells form blocks -/
def TileSet (B D n : Nat) (pos : Nat → Nat → Nat) (cov : Nat → Prop) : Prop :=
  ∀ x < n, ∀ y < n, SameTile B D (pos x) (pos y) → cov x → cov y

/-- `s` is at the corner of its block and every neighbour of it outside of the block is covered -/
def TileCorner (B D : Nat) (pos : Nat → Nat → Nat) (R : Nat → Nat → Prop) (cov : Nat → Prop) (s : Nat) : Prop :=
  AtEnd B D (pos s) ∧ ∀ z, R s z → ¬ SameTile B D (pos s) (pos z) → cov z

/-- near a corner, the cells around the block are covered -/
theorem TileGrid.near (G : TileGrid B D ext n pos R) {cov : Nat → Prop} (hB : TileSet B D n pos cov) {s y x a : Nat}
    (hs : s < n) (hc : TileCorner B D pos R cov s) (hy : SameTile B D (pos y) (pos s)) (ha : a < D) (hn : pos y a = pos s a)
    (hxn : x < n) (hx : ∀ b < D, b ≠ a → pos y b = pos x b) (h1 : pos y a + 1 = pos x a ∨ pos x a + 1 = pos y a)
    (hne : pos x a / B ≠ pos y a / B) : cov x := by
  obtain ⟨c, hcn, h2, h3⟩ := G.grid.move (a := a) hs (G.grid.range x hxn a ha)
  have h2 := h2 ha
  have : cov c := by
    refine hc.2 c ((G.grid.adj s c).2 ⟨hs, hcn, a, ha, by omega, fun b hb hba => (h3 b hb hba).symm⟩) ?_
    intro h
    have := h a ha
    rw [h2, ← hn] at this
    exact hne this.symm
  refine hB c hcn x hxn ?_ this
  intro b hb
  by_cases hba : b = a
  · subst hba; rw [h2]
  · rw [h3 b hb hba, ← hx b hb hba]
    exact (hy b hb).symm

theorem lt_of_div {B u v : Nat} (hB : 0 < B) (h : u / B = v / B) : u + 1 ≤ v + B := by
  have h1 := Nat.div_add_mod u B
  have h2 := Nat.mod_lt u hB
  have h3 := Nat.div_add_mod v B
  rw [h] at h1
  omega

/-- What can be said of a free cell `x` next to the new block around `s`: each neighbour outside of its
block is covered, or in the new block, or next to a covered cell and not with fewer sides
on the boundary; or else a cell of its block is closer to the seed, also next to the new
block, and has not fewer sides on the boundary. -/
theorem TileGrid.push (G : TileGrid B D ext n pos R) {cov : Nat → Prop} (hB : TileSet B D n pos cov) {s x y : Nat}
    (hs : s < n) (hc : TileCorner B D pos R cov s) (hy : SameTile B D (pos y) (pos s)) (hR : R y x)
    (hx : ¬ cov x) (hxs : ¬ SameTile B D (pos x) (pos s)) :
    l1 D (pos s) (pos x) = l1 D (pos s) (pos y) + 1 ∧
    ((AtEnd B D (pos x) ∧ ∀ z, R x z → ¬ SameTile B D (pos x) (pos z) → cov z ∨ SameTile B D (pos z) (pos s) ∨
        (sidesOut D ext (pos x) ≤ sidesOut D ext (pos z) ∧ ∃ w, cov w ∧ R w z)) ∨
      ∃ x' y', x' < n ∧ SameTile B D (pos x') (pos x) ∧ sidesOut D ext (pos x) ≤ sidesOut D ext (pos x') ∧
        SameTile B D (pos y') (pos s) ∧ R y' x' ∧ l1 D (pos s) (pos x') = l1 D (pos s) (pos y') + 1 ∧
        l1 D (pos s) (pos x') < l1 D (pos s) (pos x) ∧ l1 D (pos s) (pos x') ≤ D * (B - 1)) := by
  have hB2 := G.two
  have hB0 : 0 < B := by omega
  obtain ⟨hyn, hxn, a, ha, h1, h2⟩ := (G.grid.adj y x).1 hR
  have hna : pos x a / B ≠ pos y a / B := by
    intro h
    apply hxs
    intro b hb
    by_cases hba : b = a
    · subst hba; rw [h]; exact hy b hb
    · rw [← h2 b hb hba]; exact hy b hb
  have hfar : pos y a ≠ pos s a := fun h => hx (G.near hB hs hc hy ha h hxn h2 h1 hna)
  have hya := hy a ha
  -- the seed lies on the other side
  have hside : (pos y a + 1 = pos x a ∧ pos s a < pos y a) ∨ (pos x a + 1 = pos y a ∧ pos y a < pos s a) := by
    rcases h1 with h1 | h1
    · left
      refine ⟨h1, ?_⟩
      by_contra hlt
      exact hna (div_between (w := pos s a) (by omega) (by omega) hya)
    · right
      refine ⟨h1, ?_⟩
      by_contra hlt
      exact hna ((div_between (u := pos s a) (w := pos y a) (v := pos x a) (by omega) (by omega) hya.symm).trans hya.symm)
  have hlx : l1 D (pos s) (pos x) = l1 D (pos s) (pos y) + 1 := by
    have := l1_change (s := pos s) (u := pos x) (v := pos y) ha (fun b hb hne => (h2 b hb hne).symm)
    omega
  refine ⟨hlx, ?_⟩
  by_cases hex : ∃ b < D, b ≠ a ∧ pos x b ≠ pos s b ∧ 0 < pos x b ∧ pos x b + 1 < ext b
  · right
    obtain ⟨b, hb, hba, hf, h0, h01⟩ := hex
    obtain ⟨x', hx'n, h3, h4⟩ := G.grid.move (a := b) hxn (G.grid.range s hs b hb)
    obtain ⟨y', hy'n, h5, h6⟩ := G.grid.move (a := b) hyn (G.grid.range s hs b hb)
    have h3 := h3 hb
    have h5 := h5 hb
    have hxb : pos x b / B = pos s b / B := by rw [← h2 b hb hba]; exact hy b hb
    have hsx : SameTile B D (pos x') (pos x) := by
      intro d hd
      by_cases hdb : d = b
      · subst hdb; rw [h3, hxb]
      · rw [h4 d hd hdb]
    have hsy : SameTile B D (pos y') (pos s) := by
      intro d hd
      by_cases hdb : d = b
      · subst hdb; rw [h5]
      · rw [h6 d hd hdb]; exact hy d hd
    have ex := l1_change (s := pos s) (u := pos x') (v := pos x) hb h4
    have ey := l1_change (s := pos s) (u := pos y') (v := pos y) hb h6
    have exy := h2 b hb hba
    refine ⟨x', y', hx'n, hsx, ?_, hsy, ?_, by omega, by omega, ?_⟩
    · unfold sidesOut
      apply Finset.sum_le_sum
      intro d hd
      rw [Finset.mem_range] at hd
      by_cases hdb : d = b
      · subst hdb
        rw [if_neg (by omega), if_neg (by omega)]
        exact Nat.zero_le _
      · rw [h4 d hd hdb]
    · refine (G.grid.adj y' x').2 ⟨hy'n, hx'n, a, ha, ?_, ?_⟩
      · rw [h6 a ha (Ne.symm hba), h4 a ha (Ne.symm hba)]; exact h1
      · intro d hd hda
        by_cases hdb : d = b
        · subst hdb; rw [h3, h5]
        · rw [h6 d hd hdb, h4 d hd hdb]; exact h2 d hd hda
    · have hle : ∀ d ∈ Finset.range D, ((pos s d - pos x' d) + (pos x' d - pos s d)) + (if d = b then B - 1 else 0) ≤
          (B - 1) + (if d = a then 1 else 0) := by
        intro d hd
        rw [Finset.mem_range] at hd
        have hyd := hy d hd
        have e1 := lt_of_div hB0 hyd
        have e2 := lt_of_div hB0 hyd.symm
        by_cases hdb : d = b
        · subst hdb; rw [h3, if_pos rfl]; omega
        · rw [if_neg hdb, h4 d hd hdb]
          by_cases hda : d = a
          · subst hda; rw [if_pos rfl]; omega
          · rw [if_neg hda, ← h2 d hd hda]
            omega
      have := Finset.sum_le_sum hle
      simp only [Finset.sum_add_distrib, Finset.sum_ite_eq', Finset.mem_range, if_pos hb, if_pos ha, Finset.sum_const,
        Finset.card_range, Nat.nsmul_eq_mul] at this
      unfold l1
      rw [Finset.sum_add_distrib]
      omega
  · left
    push Not at hex
    refine ⟨?_, ?_⟩
    · intro b hb
      by_cases hba : b = a
      · subst hba
        rcases h1 with h1 | h1
        · left
          have := (cross hB0 (u := pos y b) (by rw [h1]; exact Ne.symm hna)).2
          rwa [h1] at this
        · right
          exact (cross hB0 (u := pos x b) (by rw [h1]; exact hna)).1
      · by_cases hbs : pos x b = pos s b
        · rw [hbs]; exact hc.1 b hb
        · by_cases h0 : 0 < pos x b
          · right
            have := hex b hb hba hbs h0
            have := G.grid.range x hxn b hb
            exact last_end hB0 (G.mult b hb) (by omega)
          · left
            rw [show pos x b = 0 by omega]
            exact Nat.zero_mod _
    intro z hz hzb
    obtain ⟨_, hzn, b, hb, h3, h4⟩ := (G.grid.adj x z).1 hz
    have hnb : pos x b / B ≠ pos z b / B := by
      intro h
      apply hzb
      intro d hd
      by_cases hdb : d = b
      · subst hdb; exact h
      · rw [h4 d hd hdb]
    have hzr := G.grid.range z hzn b hb
    have hxr := G.grid.range x hxn b hb
    by_cases hba : b = a
    · subst hba
      right; left
      have : z = y := by
        apply G.grid.inj z hzn y hyn
        intro d hd
        by_cases hdb : d = b
        · subst hdb
          rcases h1 with h1 | h1 <;> rcases h3 with h3 | h3
          · exfalso
            have e1 := (cross hB0 (u := pos y d) (by rw [h1]; exact Ne.symm hna)).2
            have e2 := (cross hB0 (u := pos x d) (by rw [h3]; exact hnb)).1
            rw [h1] at e1
            omega
          · omega
          · omega
          · exfalso
            have e1 := (cross hB0 (u := pos x d) (by rw [h1]; exact hna)).1
            have e2 := (cross hB0 (u := pos z d) (by rw [h3]; exact Ne.symm hnb)).2
            rw [h3] at e2
            omega
        · rw [← h4 d hd hdb, h2 d hd hdb]
      subst this
      exact hy
    · right; right
      have hev := G.mult b hb
      -- not at the boundary
      have hin : 0 < pos x b ∧ pos x b + 1 < ext b := by
        rcases h3 with h3 | h3
        · refine ⟨?_, by omega⟩
          by_contra h0
          have := (cross hB0 (u := pos x b) (by rw [h3]; exact hnb)).1
          rw [show pos x b = 0 by omega, Nat.zero_mod] at this
          omega
        · refine ⟨by omega, ?_⟩
          by_contra h0
          have e1 := last_end hB0 hev (u := pos x b) (by omega)
          have e2 := (cross hB0 (u := pos z b) (by rw [h3]; exact Ne.symm hnb)).2
          rw [h3] at e2
          omega
      have hns : pos x b = pos s b := by
        by_contra hne
        have := hex b hb hba hne hin.1
        omega
      have hyb := h2 b hb hba
      obtain ⟨w, hwn, h5, h6⟩ := G.grid.move (a := b) hyn hzr
      have h5 := h5 hb
      refine ⟨?_, w, ?_, (G.grid.adj w z).2 ⟨hwn, hzn, a, ha, ?_, ?_⟩⟩
      · unfold sidesOut
        apply Finset.sum_le_sum
        intro d hd
        rw [Finset.mem_range] at hd
        by_cases hdb : d = b
        · subst hdb
          rw [if_neg (by omega), if_neg (by omega)]
          exact Nat.zero_le _
        · rw [h4 d hd hdb]
      · exact G.near hB hs hc hy hb (by omega) hwn (fun d hd hdb => (h6 d hd hdb).symm) (by omega)
          (by rw [h5, hyb]; exact Ne.symm hnb)
      · rw [h6 a ha (Ne.symm hba), ← h4 a ha (Ne.symm hba)]; exact h1
      · intro d hd hda
        by_cases hdb : d = b
        · subst hdb; exact h5
        · rw [h6 d hd hdb, ← h4 d hd hdb]; exact h2 d hd hda

end CoMMA.Tile
