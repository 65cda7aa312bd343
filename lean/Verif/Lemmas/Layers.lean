import Verif.Lemmas.Chains
import Verif.Spec.Grid
/-! # Columns of a structured mesh -/

set_option linter.unusedSectionVars false

namespace CoMMA

variable {W : Type} [Num W] {D n ax : Nat} {ext : Nat → Nat} {pos : Nat → Nat → Nat}

theorem NextAlong.symm {u v : Nat → Nat} (h : NextAlong D ax u v) : NextAlong D ax v u :=
  ⟨h.1.symm, fun b hb hne => (h.2 b hb hne).symm⟩

theorem IsGrid.eq_of {R : Nat → Nat → Prop} (hg : IsGrid D ext n pos R) {u v : Nat} (hu : u < n) (hv : v < n)
    (h1 : SameColumn D ax (pos u) (pos v)) (h2 : pos u ax = pos v ax) : u = v :=
  hg.inj u hu v hv (fun b hb => by by_cases h : b = ax <;> [(rw [h]; exact h2); exact h1 b hb h])

/-- three neighbours along an axis are not all different -/
theorem IsGrid.two_along {R : Nat → Nat → Prop} (hg : IsGrid D ext n pos R) {u x y z : Nat} (hx : x < n) (hy : y < n) (hz : z < n)
    (h1 : NextAlong D ax (pos u) (pos x)) (h2 : NextAlong D ax (pos u) (pos y)) (h3 : NextAlong D ax (pos u) (pos z)) :
    x = y ∨ y = z ∨ x = z := by
  have a1 := h1.1
  have a2 := h2.1
  have a3 := h3.1
  have : pos x ax = pos y ax ∨ pos y ax = pos z ax ∨ pos x ax = pos z ax := by omega
  rcases this with h | h | h
  · exact Or.inl (hg.eq_of hx hy (fun b hb hne => by rw [← h1.2 b hb hne, h2.2 b hb hne]) h)
  · exact Or.inr (Or.inl (hg.eq_of hy hz (fun b hb hne => by rw [← h2.2 b hb hne, h3.2 b hb hne]) h))
  · exact Or.inr (Or.inr (hg.eq_of hx hz (fun b hb hne => by rw [← h1.2 b hb hne, h3.2 b hb hne]) h))

/-- the cells of a column are reached from each other along the axis -/
theorem IsGrid.walk_along {R R' : Nat → Nat → Prop} (hg : IsGrid D ext n pos R) (hax : ax < D)
    (hR : ∀ u v, u < n → v < n → NextAlong D ax (pos u) (pos v) → R' u v) : ∀ (k i j : Nat), i < n → j < n →
      SameColumn D ax (pos i) (pos j) → pos i ax + k = pos j ax → Walk R' k i j := by
  intro k
  induction k with
  | zero =>
    intro i j hi hj h1 h2
    rw [hg.eq_of hi hj h1 (by omega)]
    exact .nil _
  | succ k ih =>
    intro i j hi hj h1 h2
    obtain ⟨m, hm, hp⟩ := hg.surj (fun b => if b = ax then pos i ax + k else pos i b) (fun b hb => by
      have := hg.range i hi b hb
      have := hg.range j hj ax hax
      by_cases h : b = ax
      · subst h; simp only [if_true]; omega
      · simp only [if_neg h]; omega)
    have hmx : pos m ax = pos i ax + k := by rw [hp ax hax]; simp
    have hmb : ∀ b < D, b ≠ ax → pos m b = pos i b := fun b hb hne => by rw [hp b hb]; simp [hne]
    refine .step (ih i m hi hm (fun b hb hne => (hmb b hb hne).symm) hmx.symm) (hR m j hm hj ⟨Or.inl (by omega), fun b hb hne => ?_⟩)
    rw [hmb b hb hne, h1 b hb hne]

/-- if the strong couplings of a structured mesh are those along an axis, they form chains … -/
theorem IsGrid.chains {R : Nat → Nat → Prop} (hg : IsGrid D ext n pos R) {g : Graph W} {coupling : Coupling} {T : Nat → Prop}
    (hT : ∀ i, T i ↔ i < n)
    (hs : ∀ u < n, ∀ v < n, (StrongTo g coupling u v ↔ NextAlong D ax (pos u) (pos v))) : FormChains g coupling T := by
  refine ⟨fun u v hu hv h => ?_, fun u x y z hu hx hy hz h1 h2 h3 => ?_⟩
  · have hu := (hT u).1 hu
    have hv := (hT v).1 hv
    exact (hs v hv u hu).2 ((hs u hu v hv).1 h).symm
  · have hu := (hT u).1 hu
    have hx := (hT x).1 hx
    have hy := (hT y).1 hy
    have hz := (hT z).1 hz
    exact hg.two_along hx hy hz ((hs u hu x hx).1 h1) ((hs u hu y hy).1 h2) ((hs u hu z hz).1 h3)

/-- … which are the columns -/
theorem IsGrid.chained {R : Nat → Nat → Prop} (hg : IsGrid D ext n pos R) (hax : ax < D) {g : Graph W} {coupling : Coupling}
    {T : Nat → Prop} (hT : ∀ i, T i ↔ i < n)
    (hs : ∀ u < n, ∀ v < n, (StrongTo g coupling u v ↔ NextAlong D ax (pos u) (pos v))) {i j : Nat} (hi : i < n) (hj : j < n) :
    Chained g coupling T i j ↔ SameColumn D ax (pos i) (pos j) := by
  have hc := hg.chains hT hs
  constructor
  · rintro ⟨k, hw⟩
    induction hw with
    | nil => exact fun b _ _ => rfl
    | @step k i y z hw h ih =>
      have hy := (hT y).1 h.1
      have := ((hs y hy z hj).1 h.2.2).2
      exact fun b hb hne => (ih hi hy b hb hne).trans (this b hb hne)
  · intro h
    have hR : ∀ u v, u < n → v < n → NextAlong D ax (pos u) (pos v) → T u ∧ T v ∧ StrongTo g coupling u v :=
      fun u v hu hv huv => ⟨(hT u).2 hu, (hT v).2 hv, (hs u hu v hv).2 huv⟩
    rcases Nat.le_total (pos i ax) (pos j ax) with h1 | h1
    · exact ⟨_, hg.walk_along hax hR (pos j ax - pos i ax) i j hi hj h (by omega)⟩
    · refine ⟨_, Walk.symm (fun u v h => ⟨h.2.1, h.1, hc.back u v h.1 h.2.1 h.2.2⟩)
        (hg.walk_along hax hR (pos i ax - pos j ax) j i hj hi (fun b hb hne => (h b hb hne).symm) (by omega))⟩

/-! ## Lists of consecutive numbers -/

/-- steps of one without repetition go on in the same direction -/
theorem steady {h : Nat → Nat} {m : Nat} (hinj : ∀ a < m, ∀ b < m, h a = h b → a = b)
    (hstep : ∀ k, k + 1 < m → h k + 1 = h (k + 1) ∨ h (k + 1) + 1 = h k) :
    (∀ k < m, h k = h 0 + k) ∨ ∀ k < m, h k + k = h 0 := by
  by_cases hm : m < 2
  · left
    intro k hk
    have : k = 0 := by omega
    subst this
    rfl
  · rcases hstep 0 (by omega) with h0 | h0
    · left
      intro k
      induction k using Nat.strong_induction_on with
      | _ k ih =>
        intro hk
        match k, ih, hk with
        | 0, _, _ => rfl
        | 1, _, _ => exact h0.symm
        | k + 2, ih, hk =>
          have e1 := ih (k + 1) (by omega) (by omega)
          have e2 := ih k (by omega) (by omega)
          rcases hstep (k + 1) hk with h1 | h1
          · have h1 : h (k + 1) + 1 = h (k + 2) := h1
            omega
          · have h1 : h (k + 2) + 1 = h (k + 1) := h1
            have := hinj (k + 2) hk k (by omega) (by omega)
            omega
    · right
      intro k
      induction k using Nat.strong_induction_on with
      | _ k ih =>
        intro hk
        match k, ih, hk with
        | 0, _, _ => rfl
        | 1, _, _ => exact h0
        | k + 2, ih, hk =>
          have e1 := ih (k + 1) (by omega) (by omega)
          have e2 := ih k (by omega) (by omega)
          rcases hstep (k + 1) hk with h1 | h1
          · have e3 : h k = h (k + 2) := by
              have : h (k + 1) + 1 = h (k + 2) := h1
              omega
            have := hinj k (by omega) (k + 2) hk e3
            omega
          · have : h (k + 2) + 1 = h (k + 1) := h1
            omega

/-- a list cut in pairs -/
theorem pairs_at {groups : List (List Nat)} (h2 : ∀ grp ∈ groups, grp.length = 2) {grp : List Nat} (hg : grp ∈ groups) :
    ∃ t x y, grp = [x, y] ∧ groups.flatten[2 * t]? = some x ∧ groups.flatten[2 * t + 1]? = some y := by
  induction groups with
  | nil => simp at hg
  | cons g0 r ih =>
    obtain ⟨x0, y0, hxy⟩ : ∃ x y, g0 = [x, y] := by
      have := h2 g0 (by simp)
      match g0, this with
      | [x, y], _ => exact ⟨x, y, rfl⟩
    subst hxy
    rcases List.mem_cons.1 hg with rfl | hg
    · exact ⟨0, x0, y0, rfl, by simp, by simp⟩
    · obtain ⟨t, x, y, h3, h4, h5⟩ := ih (fun g hg => h2 g (List.mem_cons_of_mem _ hg)) hg
      refine ⟨t + 1, x, y, h3, ?_, ?_⟩
      · rw [List.flatten_cons, List.getElem?_append_right (by simp; omega)]
        simpa [Nat.mul_add] using h4
      · rw [List.flatten_cons, List.getElem?_append_right (by simp; omega)]
        have : 2 * (t + 1) + 1 - [x0, y0].length = 2 * t + 1 := by simp; omega
        rw [this]
        exact h5

/-- a line of even length without limit is cut in pairs -/
theorem Pairing.pairs {odd : Bool} {l : List Nat} {groups : List (List Nat)} (h : Pairing odd none l groups)
    (he : l.length % 2 = 0) : groups.flatten = l ∧ ∀ grp ∈ groups, grp.length = 2 := by
  have h1 : groups.flatten = l := by
    cases odd with
    | true => exact h.all rfl rfl
    | false =>
      rw [h.even rfl rfl]
      have : l.length / 2 * 2 = l.length := by omega
      rw [this, List.take_length]
  refine ⟨h1, ?_⟩
  rcases List.eq_nil_or_concat groups with rfl | ⟨init, last, rfl⟩
  · simp
  · have h3 := h.two
    rw [List.concat_eq_append, List.dropLast_concat] at h3
    have hlen : ∀ gs : List (List Nat), (∀ grp ∈ gs, grp.length = 2) → gs.flatten.length = 2 * gs.length := by
      intro gs
      induction gs with
      | nil => simp
      | cons g r ih =>
        intro hh
        rw [List.flatten_cons, List.length_append, hh g (by simp), ih (fun g hg => hh g (List.mem_cons_of_mem _ hg))]
        simp
        omega
    have h4 := hlen init h3
    rw [← h1, List.concat_eq_append, List.flatten_append, List.length_append] at he
    have h5 : last.length = 2 ∨ (last.length = 3 ∧ odd = true) := h.size last (by simp)
    intro grp hgrp
    rw [List.concat_eq_append, List.mem_append] at hgrp
    rcases hgrp with hgrp | hgrp
    · exact h3 grp hgrp
    · simp only [List.mem_singleton] at hgrp
      subst hgrp
      simp only [List.flatten_cons, List.flatten_nil, List.append_nil] at he
      omega

end CoMMA
