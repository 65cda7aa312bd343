import Mathlib.Algebra.Order.BigOperators.Group.Finset
import Verif.Spec.Grid
import Verif.Lemmas.Search
/-! # Grids: blocks, corners and distances -/

namespace CoMMA

theorem SameBlock.rfl' {D : Nat} {u : Nat → Nat} : SameBlock D u u := fun _ _ => rfl
theorem SameBlock.symm {D : Nat} {u v : Nat → Nat} (h : SameBlock D u v) : SameBlock D v u := fun a ha => (h a ha).symm
theorem SameBlock.trans {D : Nat} {u v w : Nat → Nat} (h : SameBlock D u v) (h' : SameBlock D v w) : SameBlock D u w :=
  fun a ha => (h a ha).trans (h' a ha)

/-- a grid with an even number of cells along each axis -/
structure EvenGrid (D : Nat) (ext : Nat → Nat) (n : Nat) (pos : Nat → Nat → Nat) (R : Nat → Nat → Prop) : Prop where
  grid : IsGrid D ext n pos R
  even : ∀ ax < D, ext ax % 2 = 0

variable {D : Nat} {ext : Nat → Nat} {n : Nat} {pos : Nat → Nat → Nat} {R : Nat → Nat → Prop}

/-- distance along the axes -/
def l1 (D : Nat) (u v : Nat → Nat) : Nat := ∑ ax ∈ Finset.range D, ((u ax - v ax) + (v ax - u ax))

theorem sum_change {f g : Nat → Nat} {a : Nat} (ha : a < D) (h : ∀ b < D, b ≠ a → f b = g b) :
    (∑ x ∈ Finset.range D, f x) + g a = (∑ x ∈ Finset.range D, g x) + f a := by
  rw [← Finset.add_sum_erase _ f (Finset.mem_range.2 ha), ← Finset.add_sum_erase _ g (Finset.mem_range.2 ha)]
  have : ∑ x ∈ (Finset.range D).erase a, f x = ∑ x ∈ (Finset.range D).erase a, g x := by
    apply Finset.sum_congr rfl
    intro b hb
    rw [Finset.mem_erase, Finset.mem_range] at hb
    exact h b hb.2 hb.1
  rw [this]
  omega

theorem l1_change {s u v : Nat → Nat} {a : Nat} (ha : a < D) (h : ∀ b < D, b ≠ a → u b = v b) :
    l1 D s u + ((s a - v a) + (v a - s a)) = l1 D s v + ((s a - u a) + (u a - s a)) :=
  sum_change (f := fun d => (s d - u d) + (u d - s d)) (g := fun d => (s d - v d) + (v d - s d)) ha
    (fun b hb hne => by simp only [h b hb hne])

theorem l1_self {u : Nat → Nat} : l1 D u u = 0 := by
  unfold l1
  apply Finset.sum_eq_zero
  intro a _
  omega

theorem IsGrid.adj_symm (G : IsGrid D ext n pos R) {x y : Nat} (h : R x y) : R y x := by
  rw [G.adj] at h ⊢
  obtain ⟨h1, h2, a, ha, h3, h4⟩ := h
  exact ⟨h2, h1, a, ha, h3.symm, fun b hb hne => (h4 b hb hne).symm⟩

/-- the cell that differs along one axis -/
theorem IsGrid.move (G : IsGrid D ext n pos R) {x a v : Nat} (hx : x < n) (hv : v < ext a) :
    ∃ c < n, (a < D → pos c a = v) ∧ ∀ b < D, b ≠ a → pos c b = pos x b := by
  obtain ⟨c, hc, h⟩ := G.surj (fun b => if b = a then v else pos x b) (by
    intro b hb
    split
    · rename_i h; subst h; exact hv
    · exact G.range x hx b hb)
  refine ⟨c, hc, fun ha => ?_, fun b hb hne => ?_⟩
  · rw [h a ha, if_pos rfl]
  · rw [h b hb, if_neg hne]

theorem IsGrid.l1_step (G : IsGrid D ext n pos R) {x y : Nat} {s : Nat → Nat} (h : R x y) :
    l1 D s (pos y) ≤ l1 D s (pos x) + 1 := by
  obtain ⟨_, _, a, ha, h3, h4⟩ := (G.adj x y).1 h
  have := l1_change (s := s) (u := pos x) (v := pos y) ha h4
  omega

theorem IsGrid.l1_walk (G : IsGrid D ext n pos R) {R' : Nat → Nat → Prop} (hR : ∀ x y, R' x y → R x y) {k s x : Nat}
    (h : Walk R' k s x) : l1 D (pos s) (pos x) ≤ k := by
  induction h with
  | nil => rw [l1_self]
  | @step k x y z _ h ih => have := G.l1_step (s := pos x) (hR _ _ h); omega

theorem l1_pos {u v : Nat → Nat} (h : l1 D u v ≠ 0) : ∃ a < D, u a ≠ v a := by
  by_contra hno
  push Not at hno
  apply h
  unfold l1
  apply Finset.sum_eq_zero
  intro a ha
  rw [hno a (Finset.mem_range.1 ha)]
  omega

/-- inside a free block, cells are reached along the axes -/
theorem EvenGrid.walk (G : EvenGrid D ext n pos R) {free : Nat → Prop} {s : Nat} (hs : s < n)
    (hf : ∀ y < n, SameBlock D (pos y) (pos s) → free y) : ∀ (k y : Nat), y < n → SameBlock D (pos y) (pos s) →
      l1 D (pos s) (pos y) = k → Walk (fun a b => R a b ∧ free b) k s y := by
  intro k
  induction k with
  | zero =>
    intro y hy _ h0
    have : s = y := by
      apply G.grid.inj s hs y hy
      intro a ha
      by_contra hne
      have h1 : ((pos s a - pos y a) + (pos y a - pos s a)) ≤ l1 D (pos s) (pos y) :=
        Finset.single_le_sum (f := fun ax => (pos s ax - pos y ax) + (pos y ax - pos s ax)) (fun _ _ => Nat.zero_le _)
          (Finset.mem_range.2 ha)
      omega
    subst this
    exact .nil _
  | succ k ih =>
    intro y hy hb hk
    obtain ⟨a, ha, hne⟩ := l1_pos (D := D) (u := pos s) (v := pos y) (by omega)
    obtain ⟨c, hc, h1, h2⟩ := G.grid.move (a := a) hy (G.grid.range s hs a ha)
    have h1 := h1 ha
    have hab := hb a ha
    have hcb : SameBlock D (pos c) (pos s) := by
      intro b hb'
      by_cases hba : b = a
      · subst hba; rw [h1]
      · rw [h2 b hb' hba]; exact hb b hb'
    have hch := l1_change (s := pos s) (u := pos c) (v := pos y) ha h2
    have := ih c hc hcb (by omega)
    refine .step this ⟨(G.grid.adj c y).2 ⟨hc, hy, a, ha, ?_, h2⟩, hf y hy hb⟩
    omega

/-- covered cells form blocks -/
def BlockSet (D n : Nat) (pos : Nat → Nat → Nat) (cov : Nat → Prop) : Prop :=
  ∀ x < n, ∀ y < n, SameBlock D (pos x) (pos y) → cov x → cov y

/-- every neighbour of `s` outside of its block is covered -/
def Corner (D : Nat) (pos : Nat → Nat → Nat) (R : Nat → Nat → Prop) (cov : Nat → Prop) (s : Nat) : Prop :=
  ∀ z, R s z → ¬ SameBlock D (pos s) (pos z) → cov z

/-- near a corner, the cells around the block are covered -/
theorem EvenGrid.near (G : EvenGrid D ext n pos R) {cov : Nat → Prop} (hB : BlockSet D n pos cov) {s y x a : Nat}
    (hs : s < n) (hc : Corner D pos R cov s) (hy : SameBlock D (pos y) (pos s)) (ha : a < D) (hn : pos y a = pos s a)
    (hxn : x < n) (hx : ∀ b < D, b ≠ a → pos y b = pos x b) (h1 : pos y a + 1 = pos x a ∨ pos x a + 1 = pos y a)
    (hne : pos x a / 2 ≠ pos y a / 2) : cov x := by
  obtain ⟨c, hcn, h2, h3⟩ := G.grid.move (a := a) hs (G.grid.range x hxn a ha)
  have h2 := h2 ha
  have : cov c := by
    refine hc c ((G.grid.adj s c).2 ⟨hs, hcn, a, ha, by omega, fun b hb hba => (h3 b hb hba).symm⟩) ?_
    intro h
    have := h a ha
    rw [h2] at this
    omega
  refine hB c hcn x hxn ?_ this
  intro b hb
  by_cases hba : b = a
  · subst hba; rw [h2]
  · rw [h3 b hb hba, ← hx b hb hba]
    exact (hy b hb).symm

/-- What can be said of a free cell `x` next to the new block around `s`: each neighbour outside of its
block is covered, or in the new block, or next to a covered cell and not with fewer sides
on the boundary; or else a cell of its block is closer to the seed, also next to the new
block, and has not fewer sides on the boundary. -/
theorem EvenGrid.push (G : EvenGrid D ext n pos R) {cov : Nat → Prop} (hB : BlockSet D n pos cov) {s x y : Nat}
    (hs : s < n) (hc : Corner D pos R cov s) (hy : SameBlock D (pos y) (pos s)) (hR : R y x)
    (hx : ¬ cov x) (hxs : ¬ SameBlock D (pos x) (pos s)) :
    l1 D (pos s) (pos x) = l1 D (pos s) (pos y) + 1 ∧
    ((∀ z, R x z → ¬ SameBlock D (pos x) (pos z) → cov z ∨ SameBlock D (pos z) (pos s) ∨
        (sidesOut D ext (pos x) ≤ sidesOut D ext (pos z) ∧ ∃ w, cov w ∧ R w z)) ∨
      ∃ x' y', x' < n ∧ SameBlock D (pos x') (pos x) ∧ sidesOut D ext (pos x) ≤ sidesOut D ext (pos x') ∧
        SameBlock D (pos y') (pos s) ∧ R y' x' ∧ l1 D (pos s) (pos x') = l1 D (pos s) (pos y') + 1 ∧
        l1 D (pos s) (pos x') + 1 = l1 D (pos s) (pos x) ∧ l1 D (pos s) (pos x') ≤ D) := by
  obtain ⟨hyn, hxn, a, ha, h1, h2⟩ := (G.grid.adj y x).1 hR
  have hna : pos x a / 2 ≠ pos y a / 2 := by
    intro h
    apply hxs
    intro b hb
    by_cases hba : b = a
    · subst hba; rw [h]; exact hy b hb
    · rw [← h2 b hb hba]; exact hy b hb
  have hfar : pos y a ≠ pos s a := fun h => hx (G.near hB hs hc hy ha h hxn h2 h1 hna)
  have hya := hy a ha
  have hlx : l1 D (pos s) (pos x) = l1 D (pos s) (pos y) + 1 := by
    have := l1_change (s := pos s) (u := pos x) (v := pos y) ha (fun b hb hne => (h2 b hb hne).symm)
    omega
  refine ⟨hlx, ?_⟩
  by_cases hex : ∃ b < D, b ≠ a ∧ pos x b ≠ pos s b ∧ 0 < pos x b ∧ pos x b + 1 < ext b
  · right
    obtain ⟨b, hb, hba, hf, h0, h01⟩ := hex
    obtain ⟨x', hx'n, h3, h4⟩ := G.grid.move (a := b) hxn (G.grid.range s hs b hb)
    obtain ⟨y', hy'n, h5, h6⟩ := G.grid.move (a := b) hyn (G.grid.range s hs b hb)
    have h3 := h3 hb
    have h5 := h5 hb
    have hxb : pos x b / 2 = pos s b / 2 := by rw [← h2 b hb hba]; exact hy b hb
    have hsx : SameBlock D (pos x') (pos x) := by
      intro d hd
      by_cases hdb : d = b
      · subst hdb; rw [h3, hxb]
      · rw [h4 d hd hdb]
    have hsy : SameBlock D (pos y') (pos s) := by
      intro d hd
      by_cases hdb : d = b
      · subst hdb; rw [h5]
      · rw [h6 d hd hdb]; exact hy d hd
    have ex : l1 D (pos s) (pos x') + 1 = l1 D (pos s) (pos x) := by
      have := l1_change (s := pos s) (u := pos x') (v := pos x) hb h4
      omega
    have ey : l1 D (pos s) (pos y') + 1 = l1 D (pos s) (pos y) := by
      have := l1_change (s := pos s) (u := pos y') (v := pos y) hb h6
      have := h2 b hb hba
      omega
    refine ⟨x', y', hx'n, hsx, ?_, hsy, ?_, by omega, ex, ?_⟩
    · unfold sidesOut
      apply Finset.sum_le_sum
      intro d hd
      rw [Finset.mem_range] at hd
      by_cases hdb : d = b
      · subst hdb
        rw [if_neg (by omega), if_neg (by omega)]
        exact Nat.zero_le _
      · rw [h4 d hd hdb]
    · refine (G.grid.adj y' x').2 ⟨hy'n, hx'n, a, ha, ?_, ?_⟩
      · rw [h6 a ha (Ne.symm hba), h4 a ha (Ne.symm hba)]; exact h1
      · intro d hd hda
        by_cases hdb : d = b
        · subst hdb; rw [h3, h5]
        · rw [h6 d hd hdb, h4 d hd hdb]; exact h2 d hd hda
    · have hle : ∀ d ∈ Finset.range D, ((pos s d - pos x' d) + (pos x' d - pos s d)) + (if d = b then 1 else 0) ≤
          1 + (if d = a then 1 else 0) := by
        intro d hd
        rw [Finset.mem_range] at hd
        by_cases hdb : d = b
        · subst hdb; rw [h3, if_pos rfl]; omega
        · rw [if_neg hdb, h4 d hd hdb]
          by_cases hda : d = a
          · subst hda; rw [if_pos rfl]; omega
          · rw [if_neg hda, ← h2 d hd hda]
            have := hy d hd
            omega
      have := Finset.sum_le_sum hle
      simp only [Finset.sum_add_distrib, Finset.sum_ite_eq', Finset.mem_range, if_pos hb, if_pos ha, Finset.sum_const,
        Finset.card_range, Nat.nsmul_eq_mul, Nat.mul_one] at this
      unfold l1
      rw [Finset.sum_add_distrib]
      omega
  · left
    push Not at hex
    intro z hz hzb
    obtain ⟨_, hzn, b, hb, h3, h4⟩ := (G.grid.adj x z).1 hz
    have hnb : pos x b / 2 ≠ pos z b / 2 := by
      intro h
      apply hzb
      intro d hd
      by_cases hdb : d = b
      · subst hdb; exact h
      · rw [h4 d hd hdb]
    by_cases hba : b = a
    · subst hba
      right; left
      have : z = y := by
        apply G.grid.inj z hzn y hyn
        intro d hd
        by_cases hdb : d = b
        · subst hdb; omega
        · rw [← h4 d hd hdb, h2 d hd hdb]
      subst this
      exact hy
    · right; right
      have hzr := G.grid.range z hzn b hb
      have hxr := G.grid.range x hxn b hb
      have hev := G.even b hb
      have hns : pos x b = pos s b := by
        by_contra hne
        have := hex b hb hba hne
        omega
      have hyb := h2 b hb hba
      obtain ⟨w, hwn, h5, h6⟩ := G.grid.move (a := b) hyn hzr
      have h5 := h5 hb
      refine ⟨?_, w, ?_, (G.grid.adj w z).2 ⟨hwn, hzn, a, ha, ?_, ?_⟩⟩
      · unfold sidesOut
        apply Finset.sum_le_sum
        intro d hd
        rw [Finset.mem_range] at hd
        by_cases hdb : d = b
        · subst hdb
          rw [if_neg (by omega), if_neg (by omega)]
          exact Nat.zero_le _
        · rw [h4 d hd hdb]
      · exact G.near hB hs hc hy hb (by omega) hwn (fun d hd hdb => (h6 d hd hdb).symm) (by omega) (by omega)
      · rw [h6 a ha (Ne.symm hba), ← h4 a ha (Ne.symm hba)]; exact h1
      · intro d hd hda
        by_cases hdb : d = b
        · subst hdb; exact h5
        · rw [h6 d hd hdb, ← h4 d hd hdb]; exact h2 d hd hda

end CoMMA
