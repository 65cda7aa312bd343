import Mathlib.Combinatorics.Enumerative.DoubleCounting
import Mathlib.Algebra.Order.BigOperators.Ring.Finset
import Mathlib.Algebra.Order.Ring.Nat
import Mathlib.Tactic.Ring
import Mathlib.Tactic.Linarith
import Verif.Lemmas.GridCube
/-! # External faces of sets of cells of a grid -/

set_option linter.unusedSectionVars false

namespace CoMMA

variable {W F : Type} [Num W]
variable {D : Nat} {ext : Nat → Nat} {n : Nat} {pos : Nat → Nat → Nat} {R : Nat → Nat → Prop}

/-- `y` is next to `x` in the direction `d`: an axis, upwards or downwards -/
def Beyond (D : Nat) (pos : Nat → Nat → Nat) (d : Nat × Bool) (x y : Nat) : Prop :=
  (if d.2 then pos x d.1 + 1 = pos y d.1 else pos y d.1 + 1 = pos x d.1) ∧ ∀ b < D, b ≠ d.1 → pos y b = pos x b

/-- the directions -/
def dirs (D : Nat) : Finset (Nat × Bool) := Finset.range D ×ˢ Finset.univ

theorem mem_dirs {d : Nat × Bool} : d ∈ dirs D ↔ d.1 < D := by
  unfold dirs
  rw [Finset.mem_product, Finset.mem_range]
  simp

theorem IsGrid.adj_iff (G : IsGrid D ext n pos R) {x y : Nat} : R x y ↔ x < n ∧ y < n ∧ ∃ d ∈ dirs D, Beyond D pos d x y := by
  rw [G.adj]
  unfold NextTo Beyond
  constructor
  · rintro ⟨h1, h2, a, ha, h3 | h3, h4⟩
    · exact ⟨h1, h2, (a, true), mem_dirs.2 ha, by simpa using h3, fun b hb hne => (h4 b hb hne).symm⟩
    · exact ⟨h1, h2, (a, false), mem_dirs.2 ha, by simpa using h3, fun b hb hne => (h4 b hb hne).symm⟩
  · rintro ⟨h1, h2, ⟨a, up⟩, ha, h3, h4⟩
    refine ⟨h1, h2, a, mem_dirs.1 ha, ?_, fun b hb hne => (h4 b hb hne).symm⟩
    cases up
    · exact Or.inr (by simpa using h3)
    · exact Or.inl (by simpa using h3)

theorem Beyond.cell (G : IsGrid D ext n pos R) {d : Nat × Bool} {x y z : Nat} (hy : y < n) (hz : z < n)
    (h : Beyond D pos d x y) (h' : Beyond D pos d x z) : y = z := by
  apply G.inj y hy z hz
  intro b hb
  by_cases hbd : b = d.1
  · have h1 := h.1
    have h2 := h'.1
    subst hbd
    split at h1 <;> rename_i hu
    · rw [if_pos hu] at h2; omega
    · rw [if_neg hu] at h2; omega
  · rw [h.2 b hb hbd, h'.2 b hb hbd]

theorem Beyond.dir {d d' : Nat × Bool} (hd : d ∈ dirs D) (hd' : d' ∈ dirs D) {x y : Nat} (h : Beyond D pos d x y)
    (h' : Beyond D pos d' x y) : d = d' := by
  obtain ⟨a, u⟩ := d
  obtain ⟨a', u'⟩ := d'
  have ha := mem_dirs.1 hd
  have ha' := mem_dirs.1 hd'
  simp only at ha ha'
  have h1 := h.1
  have h2 := h'.1
  simp only at h1 h2
  have : a = a' := by
    by_contra hne
    have := h'.2 a ha hne
    cases u <;> simp at h1 <;> omega
  subst this
  cases u <;> cases u' <;> simp at h1 h2 ⊢ <;> omega

/-- no cell of `T` is next to `x` in this direction -/
def Lonely (D : Nat) (pos : Nat → Nat → Nat) (T : Finset Nat) (x : Nat) (d : Nat × Bool) : Prop :=
  ∀ y ∈ T, ¬ Beyond D pos d x y

/-- the boundary of the grid is in this direction -/
def OutOf (ext : Nat → Nat) (pos : Nat → Nat → Nat) (x : Nat) (d : Nat × Bool) : Prop :=
  if d.2 then pos x d.1 + 1 = ext d.1 else pos x d.1 = 0

theorem IsGrid.beyond (G : IsGrid D ext n pos R) {x : Nat} (hx : x < n) {d : Nat × Bool} (hd : d ∈ dirs D)
    (ho : ¬ OutOf ext pos x d) : ∃ y < n, Beyond D pos d x y := by
  obtain ⟨a, up⟩ := d
  have ha := mem_dirs.1 hd
  have hr := G.range x hx a ha
  unfold OutOf at ho
  simp only at ha ho
  cases up
  · simp at ho
    obtain ⟨c, hc, h1, h2⟩ := G.move (a := a) (v := pos x a - 1) hx (by omega)
    refine ⟨c, hc, ?_, h2⟩
    simp [h1 ha]
    omega
  · simp at ho
    obtain ⟨c, hc, h1, h2⟩ := G.move (a := a) (v := pos x a + 1) hx (by omega)
    refine ⟨c, hc, ?_, h2⟩
    simp [h1 ha]

theorem OutOf.lonely (G : IsGrid D ext n pos R) {x : Nat} {d : Nat × Bool} (hd : d ∈ dirs D)
    (ho : OutOf ext pos x d) {y : Nat} (hy : y < n) : ¬ Beyond D pos d x y := by
  obtain ⟨a, up⟩ := d
  have ha := mem_dirs.1 hd
  simp only at ha
  have hr := G.range y hy a ha
  intro h
  have h1 := h.1
  unfold OutOf at ho
  cases up <;> simp at ho h1 <;> omega

open Classical in
theorem sidesOut_eq {u : Nat} : sidesOut D ext (pos u) = ((dirs D).filter (OutOf ext pos u)).card := by
  unfold sidesOut dirs
  rw [Finset.card_filter, Finset.sum_product]
  apply Finset.sum_congr rfl
  intro a _
  rw [Fintype.sum_bool]
  simp only [OutOf, if_true]
  rw [Nat.add_comm]
  congr 1

open Classical in
/-- neighbours of a cell that satisfy `p`, counted by directions -/
theorem IsGrid.count (G : IsGrid D ext n pos R) {x : Nat} {N : Finset Nat} (hN : ∀ y ∈ N, R x y) :
    N.card = ((dirs D).filter (fun d => ∃ y ∈ N, Beyond D pos d x y)).card := by
  choose! δ hδ using fun y (hy : y ∈ N) => (G.adj_iff.1 (hN y hy)).2.2
  have hlt : ∀ y ∈ N, y < n := fun y hy => (G.adj_iff.1 (hN y hy)).2.1
  rw [← Finset.card_image_of_injOn (f := δ) (s := N)]
  · congr 1
    ext d
    rw [Finset.mem_image, Finset.mem_filter]
    constructor
    · rintro ⟨y, hy, rfl⟩
      exact ⟨(hδ y hy).1, y, hy, (hδ y hy).2⟩
    · rintro ⟨hd, y, hy, hb⟩
      exact ⟨y, hy, Beyond.dir (hδ y hy).1 hd (hδ y hy).2 hb⟩
  · intro y hy z hz he
    have he : δ y = δ z := he
    have h1 := hδ y hy
    rw [he] at h1
    exact Beyond.cell G (hlt y hy) (hlt z hz) h1.2 (hδ z hz).2

open Classical in
/-- external faces of a cell of a set -/
theorem IsGrid.lonely_card (G : IsGrid D ext n pos R) {x : Nat} (hx : x < n) {T N : Finset Nat} (hT : ∀ y ∈ T, y < n)
    (hN : ∀ y, y ∈ N ↔ R x y ∧ y ∉ T) :
    N.card + sidesOut D ext (pos x) = ((dirs D).filter (Lonely D pos T x)).card := by
  rw [G.count (fun y hy => ((hN y).1 hy).1), sidesOut_eq, ← Finset.card_union_of_disjoint]
  · congr 1
    ext d
    simp only [Finset.mem_union, Finset.mem_filter]
    constructor
    · rintro (⟨hd, y, hy, hb⟩ | ⟨hd, ho⟩)
      · refine ⟨hd, fun z hz hb' => ?_⟩
        obtain ⟨h1, h2⟩ := (hN y).1 hy
        rw [Beyond.cell G (G.adj_iff.1 h1).2.1 (hT z hz) hb hb'] at h2
        exact h2 hz
      · exact ⟨hd, fun z hz => ho.lonely G hd (hT z hz)⟩
    · rintro ⟨hd, hl⟩
      by_cases ho : OutOf ext pos x d
      · exact Or.inr ⟨hd, ho⟩
      · obtain ⟨y, hy, hb⟩ := G.beyond hx hd ho
        exact Or.inl ⟨hd, y, (hN y).2 ⟨G.adj_iff.2 ⟨hx, hy, d, hd, hb⟩, fun hyT => hl y hyT hb⟩, hb⟩
  · rw [Finset.disjoint_left]
    rintro d h1 h2
    rw [Finset.mem_filter] at h1 h2
    obtain ⟨hd, y, hy, hb⟩ := h1
    exact h2.2.lonely G hd (G.adj_iff.1 ((hN y).1 hy).1).2.1 hb

open Classical in
/-- the other neighbours -/
theorem IsGrid.inside_card (G : IsGrid D ext n pos R) {x : Nat} {T N : Finset Nat}
    (hN : ∀ y, y ∈ N → R x y ∧ y ∈ T) : N.card + ((dirs D).filter (Lonely D pos T x)).card ≤ 2 * D := by
  rw [G.count (fun y hy => (hN y hy).1), ← Finset.card_union_of_disjoint]
  · refine Nat.le_trans (Finset.card_le_card (Finset.union_subset (Finset.filter_subset _ _) (Finset.filter_subset _ _))) ?_
    unfold dirs
    rw [Finset.card_product, Finset.card_range]
    simp
    omega
  · rw [Finset.disjoint_left]
    rintro d h1 h2
    rw [Finset.mem_filter] at h1 h2
    obtain ⟨hd, y, hy, hb⟩ := h1
    exact h2.2 y (hN y hy).2 hb

/-- a cell seen along the axis `a` -/
def shadow (D : Nat) (pos : Nat → Nat → Nat) (a x : Nat) : Fin D → Nat := fun b => if b.1 = a then 0 else pos x b

open Classical in
/-- each cell seen has a face on each side -/
theorem shadow_le {T : Finset Nat} {d : Nat × Bool} (hd : d ∈ dirs D) :
    (T.image (shadow D pos d.1)).card ≤ (T.filter (fun x => Lonely D pos T x d)).card := by
  refine Nat.le_trans (Finset.card_le_card (t := (T.filter (fun x => Lonely D pos T x d)).image (shadow D pos d.1)) ?_)
    Finset.card_image_le
  intro v hv
  obtain ⟨x, hx, rfl⟩ := Finset.mem_image.1 hv
  obtain ⟨a, up⟩ := d
  have ha := mem_dirs.1 hd
  simp only at ha
  have hne : (T.filter (fun y => shadow D pos a y = shadow D pos a x)).Nonempty := ⟨x, by simp [hx]⟩
  have hsh : ∀ y z, Beyond D pos (a, up) y z → shadow D pos a z = shadow D pos a y := by
    intro y z h
    funext b
    unfold shadow
    split
    · rfl
    · rename_i hb
      exact h.2 b b.2 hb
  rw [Finset.mem_image]
  cases up
  · obtain ⟨y, hy, hmin⟩ := Finset.exists_min_image _ (fun y => pos y a) hne
    rw [Finset.mem_filter] at hy
    refine ⟨y, Finset.mem_filter.2 ⟨hy.1, fun z hz hb => ?_⟩, hy.2⟩
    have := hmin z (Finset.mem_filter.2 ⟨hz, (hsh y z hb).trans hy.2⟩)
    have h1 := hb.1
    simp at h1
    omega
  · obtain ⟨y, hy, hmax⟩ := Finset.exists_max_image _ (fun y => pos y a) hne
    rw [Finset.mem_filter] at hy
    refine ⟨y, Finset.mem_filter.2 ⟨hy.1, fun z hz hb => ?_⟩, hy.2⟩
    have := hmax z (Finset.mem_filter.2 ⟨hz, (hsh y z hb).trans hy.2⟩)
    have h1 := hb.1
    simp at h1
    omega

open Classical in
/-- faces of a set by what is seen of it -/
theorem shadows_le {T : Finset Nat} :
    2 * ∑ a ∈ Finset.range D, (T.image (shadow D pos a)).card ≤ ∑ x ∈ T, ((dirs D).filter (Lonely D pos T x)).card := by
  have h := Finset.sum_card_bipartiteAbove_eq_sum_card_bipartiteBelow (s := T) (t := dirs D) (Lonely D pos T)
  unfold Finset.bipartiteAbove Finset.bipartiteBelow at h
  rw [h]
  unfold dirs
  rw [Finset.sum_product, Finset.mul_sum]
  apply Finset.sum_le_sum
  intro a ha
  rw [Fintype.sum_bool]
  have h1 := shadow_le (T := T) (pos := pos) (d := (a, true)) (mem_dirs.2 (Finset.mem_range.1 ha))
  have h2 := shadow_le (T := T) (pos := pos) (d := (a, false)) (mem_dirs.2 (Finset.mem_range.1 ha))
  simp only at h1 h2
  omega

open Classical in
/-- in the plane: a set is contained in a rectangle -/
theorem area_le (G : IsGrid 2 ext n pos R) {T : Finset Nat} (hT : ∀ y ∈ T, y < n) :
    T.card ≤ (T.image (shadow 2 pos 0)).card * (T.image (shadow 2 pos 1)).card := by
  rw [← Finset.card_product]
  refine Finset.card_le_card_of_injOn (fun x => (shadow 2 pos 0 x, shadow 2 pos 1 x)) ?_ ?_
  · intro x hx
    have hx : x ∈ T := hx
    simp only [Finset.coe_product, Set.mem_prod, Finset.mem_coe]
    exact ⟨Finset.mem_image_of_mem _ hx, Finset.mem_image_of_mem _ hx⟩
  · intro x hx y hy he
    have hx : x ∈ T := hx
    have hy : y ∈ T := hy
    simp only [Prod.mk.injEq] at he
    have h1 := congrFun he.1 1
    have h0 := congrFun he.2 0
    simp [shadow] at h0 h1
    refine G.inj x (hT x hx) y (hT y hy) (fun ax hax => ?_)
    have : ax = 0 ∨ ax = 1 := by omega
    rcases this with rfl | rfl
    · exact h0
    · exact h1

open Classical in
/-- in space: the inequality of Loomis and Whitney -/
theorem volume_le (G : IsGrid 3 ext n pos R) {T : Finset Nat} (hT : ∀ y ∈ T, y < n) :
    T.card ^ 2 ≤ (T.image (shadow 3 pos 0)).card * (T.image (shadow 3 pos 1)).card * (T.image (shadow 3 pos 2)).card := by
  set L : Nat → Finset Nat := fun z => T.filter (fun x => pos x 2 = z) with hL
  set Z := T.image (fun x => pos x 2) with hZ
  have hcard : T.card = ∑ z ∈ Z, (L z).card := Finset.card_eq_sum_card_image (fun x => pos x 2) T
  have hinj : ∀ x ∈ T, ∀ y ∈ T, pos x 0 = pos y 0 → pos x 1 = pos y 1 → pos x 2 = pos y 2 → x = y := by
    intro x hx y hy h0 h1 h2
    refine G.inj x (hT x hx) y (hT y hy) (fun ax hax => ?_)
    have : ax = 0 ∨ ax = 1 ∨ ax = 2 := by omega
    rcases this with rfl | rfl | rfl
    · exact h0
    · exact h1
    · exact h2
  have key3 : ∀ a b c : Fin 3, a ≠ b → b ≠ 2 → a ≠ 2 → c ≠ 2 → c ≠ b → c = a := by decide
  -- what is seen along the two first axes, layer by layer
  have hslice : ∀ a b : Fin 3, a ≠ b → b ≠ 2 → a ≠ 2 → ∑ z ∈ Z, ((L z).image (fun x => pos x b)).card = (T.image (shadow 3 pos a)).card := by
    intro a b hab hb ha
    rw [Finset.card_eq_sum_card_fiberwise (f := fun v : Fin 3 → Nat => v 2) (t := Z)]
    · apply Finset.sum_congr rfl
      intro z hz
      have : (T.image (shadow 3 pos a)).filter (fun v => v 2 = z) = (L z).image (shadow 3 pos a) := by
        ext v
        simp only [hL, Finset.mem_filter, Finset.mem_image]
        constructor
        · rintro ⟨⟨x, hx, rfl⟩, h2⟩
          refine ⟨x, ⟨hx, ?_⟩, rfl⟩
          rw [← h2]
          unfold shadow
          rw [if_neg (by intro e; exact ha (Fin.ext e.symm))]
          rfl
        · rintro ⟨x, ⟨hx, hxz⟩, rfl⟩
          refine ⟨⟨x, hx, rfl⟩, ?_⟩
          rw [← hxz]
          unfold shadow
          rw [if_neg (by intro e; exact ha (Fin.ext e.symm))]
          rfl
      rw [this]
      have himg : ((L z).image (shadow 3 pos a)).image (fun v => v b) = (L z).image (fun x => pos x b) := by
        rw [Finset.image_image]
        apply Finset.image_congr
        intro x _
        simp only [Function.comp, shadow]
        rw [if_neg (by intro e; exact hab (Fin.ext e.symm))]
      rw [← himg]
      apply Finset.card_image_of_injOn
      intro v hv w hw he
      obtain ⟨x, hx, rfl⟩ := Finset.mem_image.1 hv
      obtain ⟨y, hy, rfl⟩ := Finset.mem_image.1 hw
      simp only [hL, Finset.mem_filter] at hx hy
      funext c
      by_cases hc2 : c = 2
      · subst hc2
        unfold shadow
        split
        · rfl
        · exact hx.2.trans hy.2.symm
      · by_cases hcb : c = b
        · subst hcb; exact he
        · have : c = a := key3 a b c hab hb ha hc2 hcb
          subst this
          simp [shadow]
    · intro v hv
      obtain ⟨x, hx, rfl⟩ := Finset.mem_image.1 hv
      simp only [hZ]
      refine Finset.mem_coe.2 (Finset.mem_image.2 ⟨x, hx, ?_⟩)
      unfold shadow
      rw [if_neg (by intro e; exact ha (Fin.ext e.symm))]
      rfl
  have hlayer : ∀ z ∈ Z, (L z).card ^ 2 ≤ ((T.image (shadow 3 pos 2)).card * ((L z).image (fun x => pos x 0)).card) *
      ((L z).image (fun x => pos x 1)).card := by
    intro z hz
    have h1 : (L z).card ≤ (T.image (shadow 3 pos 2)).card := by
      rw [← Finset.card_image_of_injOn (f := shadow 3 pos 2) (s := L z)]
      · apply Finset.card_le_card
        exact Finset.image_subset_image (Finset.filter_subset _ _)
      · intro x hx y hy he
        simp only [hL, Finset.coe_filter, Set.mem_ofPred_eq] at hx hy
        have h0 := congrFun he 0
        have h1 := congrFun he 1
        simp [shadow] at h0 h1
        exact hinj x hx.1 y hy.1 h0 h1 (hx.2.trans hy.2.symm)
    have h2 : (L z).card ≤ ((L z).image (fun x => pos x 0)).card * ((L z).image (fun x => pos x 1)).card := by
      rw [← Finset.card_product]
      refine Finset.card_le_card_of_injOn (fun x => (pos x 0, pos x 1)) ?_ ?_
      · intro x hx
        have hx : x ∈ L z := hx
        simp only [Finset.coe_product, Set.mem_prod, Finset.mem_coe]
        exact ⟨Finset.mem_image_of_mem (fun x => pos x 0) hx, Finset.mem_image_of_mem (fun x => pos x 1) hx⟩
      · intro x hx y hy he
        simp only [hL, Finset.coe_filter, Set.mem_ofPred_eq] at hx hy
        simp only [Prod.mk.injEq] at he
        exact hinj x hx.1 y hy.1 he.1 he.2 (hx.2.trans hy.2.symm)
    calc (L z).card ^ 2 = (L z).card * (L z).card := by ring
      _ ≤ (T.image (shadow 3 pos 2)).card * (((L z).image (fun x => pos x 0)).card * ((L z).image (fun x => pos x 1)).card) :=
          Nat.mul_le_mul h1 h2
      _ = _ := by ring
  have := Finset.sum_sq_le_sum_mul_sum_of_sq_le_mul Z (f := fun z => (T.image (shadow 3 pos 2)).card * ((L z).image (fun x => pos x 0)).card)
    (g := fun z => ((L z).image (fun x => pos x 1)).card) (r := fun z => (L z).card) (fun _ _ => Nat.zero_le _) (fun _ _ => Nat.zero_le _)
    hlayer
  rw [← hcard, ← Finset.mul_sum] at this
  have e1 := hslice 1 0 (by decide) (by decide) (by decide)
  have e0 := hslice 0 1 (by decide) (by decide) (by decide)
  have c0 : ∀ x, pos x ((0 : Fin 3) : Nat) = pos x 0 := fun _ => rfl
  have c1 : ∀ x, pos x ((1 : Fin 3) : Nat) = pos x 1 := fun _ => rfl
  simp only [c0, c1] at e0 e1
  rw [e1, e0] at this
  calc T.card ^ 2 ≤ _ := this
    _ = (T.image (shadow 3 pos 0)).card * (T.image (shadow 3 pos 1)).card * (T.image (shadow 3 pos 2)).card := by
      simp only [Fin.val_zero, Fin.val_one]
      ring

end CoMMA
