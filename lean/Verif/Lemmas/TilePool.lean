import Verif.Lemmas.TileGrid
/-! # Seeds on a grid

Coarse cells made so far are blocks of the grid; the seed given by the pool is always the corner of
a block: its neighbours outside of the block are taken. -/

namespace CoMMA.Tile

variable {W : Type} [Num W]
variable {B D : Nat} {ext : Nat → Nat} {n : Nat} {pos : Nat → Nat → Nat} {R : Nat → Nat → Prop}

/-- a pool of seeds on a grid -/
structure TilePool (B D : Nat) (ext : Nat → Nat) (n : Nat) (pos : Nat → Nat → Nat) (R : Nat → Nat → Prop) (c : PoolCfg W) :
    Prop where
  grid : TileGrid B D ext n pos R
  bnd : ∀ x < n, c.nBnd[x]? = some (sidesOut D ext (pos x))
  len : c.nBnd.length = n
  dim : D ≤ 3

/-- a cell of the block of `z` waits before place `i` of level `k` -/
def EarlierTile (B D : Nat) (pos : Nat → Nat → Nat) (p : Pool) (k i z : Nat) : Prop :=
  (∃ k' q w, k < k' ∧ p.queues[k']? = some q ∧ w ∈ q ∧ SameTile B D (pos w) (pos z)) ∨
    ∃ q j w, p.queues[k]? = some q ∧ j < i ∧ q[j]? = some w ∧ SameTile B D (pos w) (pos z)

/-- a cell of the block of `z` waits on level `l` or above -/
def WaitTile (B D : Nat) (pos : Nat → Nat → Nat) (p : Pool) (l z : Nat) : Prop :=
  ∃ k q w, l ≤ k ∧ p.queues[k]? = some q ∧ w ∈ q ∧ SameTile B D (pos w) (pos z)

/-- invariant of the pool; cells next to the cells `Y` wait -/
structure PoolTile (B D : Nat) (ext : Nat → Nat) (n : Nat) (pos : Nat → Nat → Nat) (R : Nat → Nat → Prop) (c : PoolCfg W)
    (agg : List Bool) (Y : Nat → Prop) (p : Pool) : Prop where
  len : agg.length = n
  size : p.queues.length = 4
  blk : TileSet B D n pos (fun x => agg[x]? = some true)
  wait : ∀ x y, agg[x]? = some false → Y y → R y x →
    ∃ k q, p.queues[k]? = some q ∧ x ∈ q ∧ seedLevel c.kind p.top (sidesOut D ext (pos x)) ≤ k
  good : ∀ (k : Nat) q (i : Nat) x, p.queues[k]? = some q → q[i]? = some x → agg[x]? = some false →
    (AtEnd B D (pos x) ∧ ∀ z, R x z → ¬ SameTile B D (pos x) (pos z) → agg[z]? = some true ∨ EarlierTile B D pos p k i z) ∨
      EarlierTile B D pos p k i x
  above : ∀ (t k : Nat) q x, p.top = some t → t < k → p.queues[k]? = some q → x ∈ q → agg[x]? = some true
  lvl : c.kind = .boundary → ∀ (k : Nat) q x, p.queues[k]? = some q → x ∈ q → c.nBnd[x]? = some k
  freeLe : c.kind = .boundary → ∀ t x, p.top = some t → agg[x]? = some false → sidesOut D ext (pos x) ≤ t
  topSome : ∃ t, p.top = some t

theorem TileGrid.two_le (G : TileGrid B D ext n pos R) (hn : 0 < n) : ∀ ax < D, 2 ≤ ext ax := by
  intro ax hax
  have h1 := G.grid.range 0 hn ax hax
  have h2 := G.mult ax hax
  have h3 := G.two
  by_contra hlt
  rw [show ext ax = 1 by omega, Nat.mod_eq_of_lt (by omega)] at h2
  omega

/-- a cell at a corner of the grid is at the corner of a block and has no neighbour outside of it -/
theorem TileGrid.cornerCell (G : TileGrid B D ext n pos R) {x : Nat} (hx : x < n) (h : sidesOut D ext (pos x) = D) :
    AtEnd B D (pos x) ∧ ∀ z, R x z → SameTile B D (pos x) (pos z) := by
  have hB := G.two
  have hB0 : 0 < B := by omega
  have h2e := G.two_le (by omega)
  have hside : ∀ b < D, ¬ (0 < pos x b ∧ pos x b + 1 < ext b) := by
    intro b hb hin
    have : sidesOut D ext (pos x) < D := by
      unfold sidesOut
      have hlt : ∑ ax ∈ Finset.range D, ((if pos x ax = 0 then 1 else 0) + (if pos x ax + 1 = ext ax then 1 else 0)) <
          ∑ ax ∈ Finset.range D, 1 := by
        apply Finset.sum_lt_sum
        · intro ax hax
          have := h2e ax (Finset.mem_range.1 hax)
          split <;> split <;> omega
        · exact ⟨b, Finset.mem_range.2 hb, by rw [if_neg (by omega), if_neg (by omega)]; omega⟩
      rwa [sum_ones] at hlt
    omega
  have hend : AtEnd B D (pos x) := by
    intro b hb
    have h1 := hside b hb
    have h2 := G.grid.range x hx b hb
    by_cases h0 : pos x b = 0
    · left; rw [h0]; exact Nat.zero_mod _
    · right; exact last_end (by omega) (G.mult b hb) (by omega)
  refine ⟨hend, ?_⟩
  intro z hR
  obtain ⟨_, hz, a, ha, h1, h2⟩ := (G.grid.adj x z).1 hR
  intro b hb
  by_cases hba : b = a
  · subst hba
    have hzr := G.grid.range z hz b hb
    have hxr := G.grid.range x hx b hb
    have hs := hside b hb
    by_contra hne
    rcases h1 with h1 | h1
    · have := (cross hB0 (u := pos x b) (by rw [h1]; exact hne)).1
      rw [show pos x b = 0 by omega, Nat.zero_mod] at this
      omega
    · have e2 := (cross hB0 (u := pos z b) (by rw [h1]; exact Ne.symm hne)).2
      have e1 := last_end hB0 (G.mult b hb) (u := pos x b) (by omega)
      rw [h1] at e2
      omega
  · rw [h2 b hb hba]

/-- a covered cell and a free one: somewhere a free cell is next to a covered one -/
theorem TileGrid.frontier (G : TileGrid B D ext n pos R) {cov : Nat → Prop} : ∀ (k x y : Nat), x < n → y < n → ¬ cov x → cov y →
    l1 D (pos x) (pos y) = k → ∃ u v, u < n ∧ v < n ∧ ¬ cov u ∧ cov v ∧ R v u := by
  intro k
  induction k with
  | zero =>
    intro x y hx hy hcx hcy h0
    exfalso
    have : x = y := by
      apply G.grid.inj x hx y hy
      intro a ha
      by_contra hne
      have h1 : ((pos x a - pos y a) + (pos y a - pos x a)) ≤ l1 D (pos x) (pos y) :=
        Finset.single_le_sum (f := fun ax => (pos x ax - pos y ax) + (pos y ax - pos x ax)) (fun _ _ => Nat.zero_le _)
          (Finset.mem_range.2 ha)
      omega
    subst this
    exact hcx hcy
  | succ k ih =>
    intro x y hx hy hcx hcy hk
    obtain ⟨a, ha, hne⟩ := l1_pos (D := D) (u := pos x) (v := pos y) (by omega)
    have hxr := G.grid.range x hx a ha
    have hyr := G.grid.range y hy a ha
    obtain ⟨c, hc, h1, h2⟩ := G.grid.move (a := a) (v := if pos x a < pos y a then pos y a - 1 else pos y a + 1) hy
      (by split <;> omega)
    have h1 := h1 ha
    have hch := l1_change (s := pos x) (u := pos c) (v := pos y) ha h2
    have hR : R y c := (G.grid.adj y c).2 ⟨hy, hc, a, ha, by rw [h1]; split <;> omega, fun b hb hba => (h2 b hb hba).symm⟩
    by_cases hcc : cov c
    · exact ih x c hx hc hcx hcc (by rw [h1] at hch; split at hch <;> omega)
    · exact ⟨c, y, hc, hy, hcc, hcy, hR⟩

/-- If no free cell has more sides on the boundary than `x`, which is not at a corner of the grid,
a free cell with as many is next to a covered one. -/
theorem TileGrid.frontierAt (G : TileGrid B D ext n pos R) {cov : Nat → Prop} {x : Nat} (hx : x < n) (hf : ¬ cov x)
    (hlt : sidesOut D ext (pos x) ≠ D)
    (hmax : ∀ y < n, ¬ cov y → sidesOut D ext (pos y) ≤ sidesOut D ext (pos x)) :
    ∃ u v, u < n ∧ ¬ cov u ∧ cov v ∧ R v u ∧ sidesOut D ext (pos u) = sidesOut D ext (pos x) := by
  have h2e := G.two_le (show 0 < n by omega)
  have : ∃ a < D, 0 < pos x a ∧ pos x a + 1 ≠ ext a := by
    by_contra hno
    push Not at hno
    apply hlt
    unfold sidesOut
    have : ∑ ax ∈ Finset.range D, ((if pos x ax = 0 then 1 else 0) + (if pos x ax + 1 = ext ax then 1 else 0)) =
        ∑ ax ∈ Finset.range D, 1 := by
      apply Finset.sum_congr rfl
      intro ax hax
      have h3 := hno ax (Finset.mem_range.1 hax)
      have h4 := h2e ax (Finset.mem_range.1 hax)
      by_cases h0 : pos x ax = 0
      · rw [if_pos h0, if_neg (by omega)]
      · rw [if_neg h0, if_pos (h3 (by omega))]
    rwa [sum_ones] at this
  obtain ⟨a, ha, h0, h1⟩ := this
  -- walk towards the boundary along `a`
  have key : ∀ (k u : Nat), u < n → ¬ cov u → pos u a = k → (∀ b < D, b ≠ a → pos u b = pos x b) →
      ∃ u v, u < n ∧ ¬ cov u ∧ cov v ∧ R v u ∧ sidesOut D ext (pos u) = sidesOut D ext (pos x) := by
    intro k
    induction k with
    | zero =>
      intro u hu hcu hk hb
      exfalso
      have h3 := hmax u hu hcu
      have h4 := sum_change (D := D) (f := fun ax => (if pos u ax = 0 then 1 else 0) + (if pos u ax + 1 = ext ax then 1 else 0))
        (g := fun ax => (if pos x ax = 0 then 1 else 0) + (if pos x ax + 1 = ext ax then 1 else 0)) ha
        (fun b hb' hba => by simp only [hb b hb' hba])
      simp only [hk, if_neg (show pos x a ≠ 0 by omega), if_neg h1] at h4
      unfold sidesOut at h3
      have := h2e a ha
      rw [if_pos trivial] at h4
      omega
    | succ k ih =>
      intro u hu hcu hk hb
      have hur := G.grid.range u hu a ha
      obtain ⟨v, hv, h3, h4⟩ := G.grid.move (a := a) (v := k) hu (by omega)
      have h3 := h3 ha
      by_cases hcv : cov v
      · refine ⟨u, v, hu, hcu, hcv, (G.grid.adj v u).2 ⟨hv, hu, a, ha, by omega, h4⟩, ?_⟩
        apply Nat.le_antisymm (hmax u hu hcu)
        unfold sidesOut
        apply Finset.sum_le_sum
        intro d hd
        rw [Finset.mem_range] at hd
        by_cases hda : d = a
        · subst hda
          rw [if_neg (show pos x d ≠ 0 by omega), if_neg h1]
          exact Nat.zero_le _
        · rw [hb d hd hda]
      · exact ih v hv hcv h3 (fun b hb' hba => by rw [h4 b hb' hba]; exact hb b hb' hba)
  exact key (pos x a) x hx hf rfl (fun _ _ _ => rfl)

end CoMMA.Tile
