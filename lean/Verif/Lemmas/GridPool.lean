import Verif.Lemmas.Grid
import Verif.Spec.Growth
/-! # Seeds on a grid

Coarse cells made so far are blocks of the grid; the seed given by the pool is always the corner of
a block: its neighbours outside of the block are taken. -/

namespace CoMMA

variable {W : Type} [Num W]
variable {D : Nat} {ext : Nat → Nat} {n : Nat} {pos : Nat → Nat → Nat} {R : Nat → Nat → Prop}

/-- a pool of seeds on a grid -/
structure GridPool (D : Nat) (ext : Nat → Nat) (n : Nat) (pos : Nat → Nat → Nat) (R : Nat → Nat → Prop) (c : PoolCfg W) :
    Prop where
  grid : EvenGrid D ext n pos R
  bnd : ∀ x < n, c.nBnd[x]? = some (sidesOut D ext (pos x))
  len : c.nBnd.length = n
  dim : D ≤ 3

/-- a cell of the block of `z` waits before place `i` of level `k` -/
def Earlier (D : Nat) (pos : Nat → Nat → Nat) (p : Pool) (k i z : Nat) : Prop :=
  (∃ k' q w, k < k' ∧ p.queues[k']? = some q ∧ w ∈ q ∧ SameBlock D (pos w) (pos z)) ∨
    ∃ q j w, p.queues[k]? = some q ∧ j < i ∧ q[j]? = some w ∧ SameBlock D (pos w) (pos z)

/-- a cell of the block of `z` waits on level `l` or above -/
def WaitAt (D : Nat) (pos : Nat → Nat → Nat) (p : Pool) (l z : Nat) : Prop :=
  ∃ k q w, l ≤ k ∧ p.queues[k]? = some q ∧ w ∈ q ∧ SameBlock D (pos w) (pos z)

/-- invariant of the pool; cells next to the cells `Y` wait -/
structure PoolGrid (D : Nat) (ext : Nat → Nat) (n : Nat) (pos : Nat → Nat → Nat) (R : Nat → Nat → Prop) (c : PoolCfg W)
    (agg : List Bool) (Y : Nat → Prop) (p : Pool) : Prop where
  len : agg.length = n
  size : p.queues.length = 4
  blk : BlockSet D n pos (fun x => agg[x]? = some true)
  wait : ∀ x y, agg[x]? = some false → Y y → R y x →
    ∃ k q, p.queues[k]? = some q ∧ x ∈ q ∧ seedLevel c.kind p.top (sidesOut D ext (pos x)) ≤ k
  good : ∀ (k : Nat) q (i : Nat) x, p.queues[k]? = some q → q[i]? = some x → agg[x]? = some false →
    (∀ z, R x z → ¬ SameBlock D (pos x) (pos z) → agg[z]? = some true ∨ Earlier D pos p k i z) ∨ Earlier D pos p k i x
  above : ∀ (t k : Nat) q x, p.top = some t → t < k → p.queues[k]? = some q → x ∈ q → agg[x]? = some true
  lvl : c.kind = .boundary → ∀ (k : Nat) q x, p.queues[k]? = some q → x ∈ q → c.nBnd[x]? = some k
  freeLe : c.kind = .boundary → ∀ t x, p.top = some t → agg[x]? = some false → sidesOut D ext (pos x) ≤ t
  topSome : ∃ t, p.top = some t

theorem seedLevel_mono {k : PoolKind} {t : Option Nat} {a b : Nat} (h : a ≤ b) : seedLevel k t a ≤ seedLevel k t b := by
  cases k <;> cases t <;> simp only [seedLevel] <;> omega

theorem seedLevel_le {k : PoolKind} {t : Option Nat} {a : Nat} : seedLevel k t a ≤ a := by
  cases k <;> cases t <;> simp only [seedLevel] <;> omega

theorem sum_ones : ∑ _ax ∈ Finset.range D, 1 = D := by
  simp only [Finset.sum_const, Finset.card_range, Nat.nsmul_eq_mul, Nat.mul_one]

theorem sidesOut_le (he : ∀ ax < D, 2 ≤ ext ax) (u : Nat → Nat) : sidesOut D ext u ≤ D := by
  unfold sidesOut
  have : ∀ ax ∈ Finset.range D, ((if u ax = 0 then 1 else 0) + (if u ax + 1 = ext ax then 1 else 0)) ≤ 1 := by
    intro ax hax
    have := he ax (Finset.mem_range.1 hax)
    split <;> split <;> omega
  have := Finset.sum_le_sum this
  rwa [sum_ones] at this

theorem EvenGrid.two_le (G : EvenGrid D ext n pos R) (hn : 0 < n) : ∀ ax < D, 2 ≤ ext ax := by
  intro ax hax
  have := G.grid.range 0 hn ax hax
  have := G.even ax hax
  omega

/-- a cell at a corner of the grid has no neighbour outside of its block -/
theorem EvenGrid.cornerCell (G : EvenGrid D ext n pos R) {x z : Nat} (hx : x < n) (h : sidesOut D ext (pos x) = D)
    (hR : R x z) : SameBlock D (pos x) (pos z) := by
  obtain ⟨_, hz, a, ha, h1, h2⟩ := (G.grid.adj x z).1 hR
  intro b hb
  by_cases hba : b = a
  · subst hba
    have hzr := G.grid.range z hz b hb
    have hxr := G.grid.range x hx b hb
    have hev := G.even b hb
    have h2e := G.two_le (by omega)
    by_contra hne
    have hin : 0 < pos x b ∧ pos x b + 1 < ext b := by omega
    have : sidesOut D ext (pos x) < D := by
      unfold sidesOut
      have hlt : ∑ ax ∈ Finset.range D, ((if pos x ax = 0 then 1 else 0) + (if pos x ax + 1 = ext ax then 1 else 0)) <
          ∑ ax ∈ Finset.range D, 1 := by
        apply Finset.sum_lt_sum
        · intro ax hax
          have := h2e ax (Finset.mem_range.1 hax)
          split <;> split <;> omega
        · exact ⟨b, Finset.mem_range.2 hb, by rw [if_neg (by omega), if_neg (by omega)]; omega⟩
      rwa [sum_ones] at hlt
    omega
  · rw [h2 b hb hba]

/-- a covered cell and a free one: somewhere a free cell is next to a covered one -/
theorem EvenGrid.frontier (G : EvenGrid D ext n pos R) {cov : Nat → Prop} : ∀ (k x y : Nat), x < n → y < n → ¬ cov x → cov y →
    l1 D (pos x) (pos y) = k → ∃ u v, u < n ∧ v < n ∧ ¬ cov u ∧ cov v ∧ R v u := by
  intro k
  induction k with
  | zero =>
    intro x y hx hy hcx hcy h0
    exfalso
    have : x = y := by
      apply G.grid.inj x hx y hy
      intro a ha
      by_contra hne
      have h1 : ((pos x a - pos y a) + (pos y a - pos x a)) ≤ l1 D (pos x) (pos y) :=
        Finset.single_le_sum (f := fun ax => (pos x ax - pos y ax) + (pos y ax - pos x ax)) (fun _ _ => Nat.zero_le _)
          (Finset.mem_range.2 ha)
      omega
    subst this
    exact hcx hcy
  | succ k ih =>
    intro x y hx hy hcx hcy hk
    obtain ⟨a, ha, hne⟩ := l1_pos (D := D) (u := pos x) (v := pos y) (by omega)
    have hxr := G.grid.range x hx a ha
    have hyr := G.grid.range y hy a ha
    obtain ⟨c, hc, h1, h2⟩ := G.grid.move (a := a) (v := if pos x a < pos y a then pos y a - 1 else pos y a + 1) hy
      (by split <;> omega)
    have h1 := h1 ha
    have hch := l1_change (s := pos x) (u := pos c) (v := pos y) ha h2
    have hR : R y c := (G.grid.adj y c).2 ⟨hy, hc, a, ha, by rw [h1]; split <;> omega, fun b hb hba => (h2 b hb hba).symm⟩
    by_cases hcc : cov c
    · exact ih x c hx hc hcx hcc (by rw [h1] at hch; split at hch <;> omega)
    · exact ⟨c, y, hc, hy, hcc, hcy, hR⟩

/-- If no free cell has more sides on the boundary than `x`, which is not at a corner of the grid,
a free cell with as many is next to a covered one. -/
theorem EvenGrid.frontierAt (G : EvenGrid D ext n pos R) {cov : Nat → Prop} {x : Nat} (hx : x < n) (hf : ¬ cov x)
    (hlt : sidesOut D ext (pos x) ≠ D)
    (hmax : ∀ y < n, ¬ cov y → sidesOut D ext (pos y) ≤ sidesOut D ext (pos x)) :
    ∃ u v, u < n ∧ ¬ cov u ∧ cov v ∧ R v u ∧ sidesOut D ext (pos u) = sidesOut D ext (pos x) := by
  have h2e := G.two_le (show 0 < n by omega)
  have : ∃ a < D, 0 < pos x a ∧ pos x a + 1 ≠ ext a := by
    by_contra hno
    push Not at hno
    apply hlt
    unfold sidesOut
    have : ∑ ax ∈ Finset.range D, ((if pos x ax = 0 then 1 else 0) + (if pos x ax + 1 = ext ax then 1 else 0)) =
        ∑ ax ∈ Finset.range D, 1 := by
      apply Finset.sum_congr rfl
      intro ax hax
      have h3 := hno ax (Finset.mem_range.1 hax)
      have h4 := h2e ax (Finset.mem_range.1 hax)
      by_cases h0 : pos x ax = 0
      · rw [if_pos h0, if_neg (by omega)]
      · rw [if_neg h0, if_pos (h3 (by omega))]
    rwa [sum_ones] at this
  obtain ⟨a, ha, h0, h1⟩ := this
  -- walk towards the boundary along `a`
  have key : ∀ (k u : Nat), u < n → ¬ cov u → pos u a = k → (∀ b < D, b ≠ a → pos u b = pos x b) →
      ∃ u v, u < n ∧ ¬ cov u ∧ cov v ∧ R v u ∧ sidesOut D ext (pos u) = sidesOut D ext (pos x) := by
    intro k
    induction k with
    | zero =>
      intro u hu hcu hk hb
      exfalso
      have h3 := hmax u hu hcu
      have h4 := sum_change (D := D) (f := fun ax => (if pos u ax = 0 then 1 else 0) + (if pos u ax + 1 = ext ax then 1 else 0))
        (g := fun ax => (if pos x ax = 0 then 1 else 0) + (if pos x ax + 1 = ext ax then 1 else 0)) ha
        (fun b hb' hba => by simp only [hb b hb' hba])
      simp only [hk, if_neg (show pos x a ≠ 0 by omega), if_neg h1] at h4
      unfold sidesOut at h3
      have := h2e a ha
      rw [if_pos trivial] at h4
      omega
    | succ k ih =>
      intro u hu hcu hk hb
      have hur := G.grid.range u hu a ha
      obtain ⟨v, hv, h3, h4⟩ := G.grid.move (a := a) (v := k) hu (by omega)
      have h3 := h3 ha
      by_cases hcv : cov v
      · refine ⟨u, v, hu, hcu, hcv, (G.grid.adj v u).2 ⟨hv, hu, a, ha, by omega, h4⟩, ?_⟩
        apply Nat.le_antisymm (hmax u hu hcu)
        unfold sidesOut
        apply Finset.sum_le_sum
        intro d hd
        rw [Finset.mem_range] at hd
        by_cases hda : d = a
        · subst hda
          rw [if_neg (show pos x d ≠ 0 by omega), if_neg h1]
          exact Nat.zero_le _
        · rw [hb d hd hda]
      · exact ih v hv hcv h3 (fun b hb' hba => by rw [h4 b hb' hba]; exact hb b hb' hba)
  exact key (pos x a) x hx hf rfl (fun _ _ _ => rfl)

end CoMMA
