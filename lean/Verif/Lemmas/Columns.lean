import Verif.Spec.Columns
import Verif.Lemmas.Layers
/-! # Columns of cells -/

set_option linter.unusedSectionVars false

namespace CoMMA

variable {W : Type} [Num W] {T : Nat → Prop} {col height len : Nat → Nat}

theorem OnTop.symm {u v : Nat} (h : OnTop col height u v) : OnTop col height v u := ⟨h.1.symm, h.2.symm⟩

theorem Stacked.two (hg : Stacked T col height len) {u x y z : Nat} (hx : T x) (hy : T y) (hz : T z)
    (h1 : OnTop col height u x) (h2 : OnTop col height u y) (h3 : OnTop col height u z) : x = y ∨ y = z ∨ x = z := by
  have a1 := h1.2
  have a2 := h2.2
  have a3 := h3.2
  have : height x = height y ∨ height y = height z ∨ height x = height z := by omega
  rcases this with h | h | h
  · exact Or.inl (hg.inj x y hx hy (h1.1.symm.trans h2.1) h)
  · exact Or.inr (Or.inl (hg.inj y z hy hz (h2.1.symm.trans h3.1) h))
  · exact Or.inr (Or.inr (hg.inj x z hx hz (h1.1.symm.trans h3.1) h))

/-- strong couplings in columns form chains … -/
theorem Stacked.chains (hg : Stacked T col height len) {g : Graph W} {coupling : Coupling}
    (hs : StrongColumns g coupling T col height) : FormChains g coupling T := by
  refine ⟨fun u v hu hv h => (hs v u hv hu).2 ((hs u v hu hv).1 h).symm, fun u x y z hu hx hy hz h1 h2 h3 => ?_⟩
  exact hg.two hx hy hz ((hs u x hu hx).1 h1) ((hs u y hu hy).1 h2) ((hs u z hu hz).1 h3)

theorem Stacked.climb (hg : Stacked T col height len) {R : Nat → Nat → Prop} (hR : ∀ u v, T u → T v → OnTop col height u v → R u v) :
    ∀ (k i j : Nat), T i → T j → col i = col j → height i + k = height j → Walk R k i j := by
  intro k
  induction k with
  | zero =>
    intro i j hi hj h1 h2
    rw [hg.inj i j hi hj h1 (by omega)]
    exact .nil _
  | succ k ih =>
    intro i j hi hj h1 h2
    have := hg.range j hj
    obtain ⟨m, hm, h3, h4⟩ := hg.full i hi (height i + k) (by rw [h1]; omega)
    exact .step (ih i m hi hm h3.symm h4.symm) (hR m j hm hj ⟨h3.trans h1, Or.inl (by omega)⟩)

/-- … which are the columns -/
theorem Stacked.chained (hg : Stacked T col height len) {g : Graph W} {coupling : Coupling}
    (hs : StrongColumns g coupling T col height) {i j : Nat} (hi : T i) (hj : T j) :
    Chained g coupling T i j ↔ col i = col j := by
  have hc := hg.chains hs
  constructor
  · rintro ⟨k, hw⟩
    induction hw with
    | nil => rfl
    | @step k i y z hw h ih => exact (ih hi h.1).trans ((hs y z h.1 hj).1 h.2.2).1
  · intro h
    have hR : ∀ u v, T u → T v → OnTop col height u v → T u ∧ T v ∧ StrongTo g coupling u v :=
      fun u v hu hv huv => ⟨hu, hv, (hs u v hu hv).2 huv⟩
    rcases Nat.le_total (height i) (height j) with h1 | h1
    · exact ⟨_, hg.climb hR (height j - height i) i j hi hj h (by omega)⟩
    · refine ⟨_, Walk.symm (fun u v h => ⟨h.2.1, h.1, hc.back u v h.1 h.2.1 h.2.2⟩)
        (hg.climb hR (height i - height j) j i hj hi h.symm (by omega))⟩

/-- a list of the cells of a column, each one once and one after the other -/
theorem Stacked.listed (hg : Stacked T col height len) {l : List Nat} (hnd : l.Nodup) (hcons : Consecutive (OnTop col height) l)
    {i : Nat} (hi : T i) (hl : ∀ x, x ∈ l ↔ T x ∧ col x = col i) :
    l.length = len (col i) ∧
      ((∀ q x : Nat, l[q]? = some x → height x = q) ∨ ∀ q x : Nat, l[q]? = some x → height x = len (col i) - 1 - q) := by
  have hnodup : (l.map height).Nodup := by
    refine List.Nodup.map_on ?_ hnd
    intro x hx y hy h
    obtain ⟨h1, h2⟩ := (hl x).1 hx
    obtain ⟨h3, h4⟩ := (hl y).1 hy
    exact hg.inj x y h1 h3 (h2.trans h4.symm) h
  have hperm : (l.map height).Perm (List.range (len (col i))) := by
    rw [List.perm_ext_iff_of_nodup hnodup List.nodup_range]
    intro q
    rw [List.mem_map, List.mem_range]
    constructor
    · rintro ⟨x, hx, rfl⟩
      obtain ⟨h1, h2⟩ := (hl x).1 hx
      rw [← h2]
      exact hg.range x h1
    · intro hq
      obtain ⟨v, h1, h2, h3⟩ := hg.full i hi q hq
      exact ⟨v, (hl v).2 ⟨h1, h2⟩, h3⟩
  have hlen : l.length = len (col i) := by simpa using hperm.length_eq
  refine ⟨hlen, ?_⟩
  have hdir := steady (h := fun k => height (l.getD k 0)) (m := l.length) (by
    intro a ha b hb hab
    simp only [List.getD_eq_getElem?_getD, List.getElem?_eq_getElem ha, List.getElem?_eq_getElem hb, Option.getD_some] at hab
    obtain ⟨h1, h2⟩ := (hl _).1 (List.getElem_mem ha)
    obtain ⟨h3, h4⟩ := (hl _).1 (List.getElem_mem hb)
    exact (List.Nodup.getElem_inj_iff hnd).1 (hg.inj _ _ h1 h3 (h2.trans h4.symm) hab)) (by
    intro k hk
    have hk0 : k < l.length := by omega
    have := (hcons k _ _ (List.getElem?_eq_getElem hk0) (List.getElem?_eq_getElem hk)).2
    simp only [List.getD_eq_getElem?_getD, List.getElem?_eq_getElem hk0, List.getElem?_eq_getElem hk, Option.getD_some]
    exact this)
  have hrange : ∀ k, k < l.length → height (l.getD k 0) < l.length := by
    intro k hk
    rw [List.getD_eq_getElem?_getD, List.getElem?_eq_getElem hk, Option.getD_some, hlen]
    obtain ⟨h1, h2⟩ := (hl _).1 (List.getElem_mem hk)
    rw [← h2]
    exact hg.range _ h1
  have hpos : 0 < l.length := List.length_pos_of_mem ((hl i).2 ⟨hi, rfl⟩)
  have e0 := hrange 0 hpos
  have e1 := hrange (l.length - 1) (by omega)
  rcases hdir with h | h
  · left
    intro q x hx
    have hq := (List.getElem?_eq_some_iff.1 hx).1
    have e2 := h (l.length - 1) (by omega)
    have e3 := h q hq
    rw [List.getD_eq_getElem?_getD (i := q), hx, Option.getD_some] at e3
    omega
  · right
    intro q x hx
    have hq := (List.getElem?_eq_some_iff.1 hx).1
    have e2 := h (l.length - 1) (by omega)
    have e3 := h q hq
    rw [List.getD_eq_getElem?_getD (i := q), hx, Option.getD_some] at e3
    omega

end CoMMA
