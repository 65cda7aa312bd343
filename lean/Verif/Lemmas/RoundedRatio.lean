import Verif.Lemmas.RoundedRange
import Verif.Props.RoundedFeatures
/-! # Aspect ratios computed from rounded features -/

set_option linter.unusedSectionVars false

namespace CoMMA

variable {W : Type} [Num W] {v : W → ℚ} {Fin : W → Prop} {u η L τ T : ℚ} {N D P : Nat} {g : Graph W}

/-- bounds for numbers that are multiplied and divided -/
structure Moderation (u η L τ T : ℚ) : Prop where
  pos : 0 < τ
  inv : τ * T = 1
  one : 1 ≤ T
  eta : η ≤ u * (τ * τ * τ)
  large : 1024 * (T * T * T * T * T) ≤ L
  modest : 2 ^ 60 * (T + 1) ≤ L

section
variable (hC : RangeInput g v Fin u η L N D P) (hT : Moderation u η L τ T)
include hC hT

theorem tau_le : τ ≤ 1 := by
  have h1 := hT.inv
  have h2 := mul_le_mul_of_nonneg_left hT.one hT.pos.le
  linarith

theorem near_bounds {p : Nat} {x A S : ℚ} (h : Near u p 0 x A S) (hA : |A| ≤ S) (hp : p ≤ P) : |x| ≤ 3 / 2 * S := by
  have h2 := grow_half hC hp
  unfold Near at h
  have h3 : |x| ≤ |x - A| + |A| := by
    have := abs_add_le (x - A) A
    simpa using this
  have hS : 0 ≤ S := (abs_nonneg _).trans hA
  have h4 : ((1 + u) ^ p - 1) * S ≤ 1 / 2 * S := mul_le_mul_of_nonneg_right (by linarith) hS
  linarith

theorem near_below {p : Nat} {x A : ℚ} (h : Near u p 0 x A A) (hA : 0 < A) (hp : p ≤ P) : 1 / 2 * A ≤ x := by
  have h2 := grow_half hC hp
  unfold Near at h
  rw [abs_le] at h
  have h4 : ((1 + u) ^ p - 1) * A ≤ 1 / 2 * A := mul_le_mul_of_nonneg_right (by linarith) hA.le
  linarith [h.1]

theorem near_mul {p q : Nat} {a b : W} {A B S R : ℚ} (ha : Fin a) (hb : Fin b) (h1 : Near u p 0 (v a) A S) (h2 : Near u q 0 (v b) B R)
    (hA : |A| ≤ S) (hB : |B| ≤ R) (hp : p ≤ P) (hq : q ≤ P) (hL : 4 * (S * R) ≤ L) (hs : τ * τ * τ ≤ S * R) :
    Fin (Num.mul a b) ∧ Near u (p + q + 2) 0 (v (Num.mul a b)) (A * B) (S * R) := by
  have hR := hC.arith
  have hu := hR.nonneg
  have s1 := near_bounds hC hT h1 hA hp
  have s2 := near_bounds hC hT h2 hB hq
  have hS : 0 ≤ S := (abs_nonneg _).trans hA
  have hR0 : 0 ≤ R := (abs_nonneg _).trans hB
  have hSR := mul_nonneg hS hR0
  have f : Fin (Num.mul a b) := by
    refine hC.range.mul _ _ ha hb ?_
    rw [abs_mul]
    refine (mul_le_mul s1 s2 (abs_nonneg _) (by linarith)).trans ?_
    have : 3 / 2 * S * (3 / 2 * R) = 9 / 4 * (S * R) := by ring
    linarith
  refine ⟨f, ?_⟩
  have n1 := h1.mul hu h2 hA hB
  have hAB : |A * B| ≤ S * R := by rw [abs_mul]; exact mul_le_mul hA hB (abs_nonneg _) hS
  have n2 := n1.round hu hAB hR.small (hR.mul _ _ (Or.inr hb) ha f).2
  have n3 : Near u (p + q + 1) ((1 : Nat) * η) (v (Num.mul a b)) (A * B) (S * R) := by simpa using n2
  exact n3.absorb hu (hT.eta.trans (mul_le_mul_of_nonneg_left hs hu)) hSR

theorem near_div {p q : Nat} {a b : W} {A B S : ℚ} (ha : Fin a) (hb : Fin b) (h1 : Near u p 0 (v a) A S) (h2 : Near u q 0 (v b) B B)
    (hA : |A| ≤ S) (hB : 0 < B) (hp : p ≤ P) (hq : q ≤ P) (hL : 4 * (S / B) ≤ L) :
    Fin (Num.div a b) ∧ Near u (p + 2 * q + 1) η (v (Num.div a b)) (A / B) (S / B) := by
  have hR := hC.arith
  have hu := hR.nonneg
  have s1 := near_bounds hC hT h1 hA hp
  have s2 := near_below hC hT h2 hB hq
  have hS : 0 ≤ S := (abs_nonneg _).trans hA
  obtain ⟨hy, n1⟩ := h1.div hu h2 hA le_rfl hB (grow_half hC hq)
  have f : Fin (Num.div a b) := by
    refine hC.range.div _ _ ha hb hy.ne' ?_
    rw [abs_div, abs_of_pos hy]
    refine le_trans (div_le_div₀ (by linarith) s1 (by linarith) s2) ?_
    have : 3 / 2 * S / (1 / 2 * B) = 3 * (S / B) := by field_simp
    have h0 : 0 ≤ S / B := div_nonneg hS hB.le
    linarith
  refine ⟨f, ?_⟩
  have hAB : |A / B| ≤ S / B := by rw [abs_div, abs_of_pos hB]; exact div_le_div_of_nonneg_right hA hB.le
  have n2 := n1.round hu hAB hR.small (hR.div _ _ hb hy.ne' f).2
  simpa using n2

/-- bounds of products and quotients -/
theorem range_facts {S B : ℚ} (hS : τ ≤ S ∧ S ≤ T) (hB : τ ≤ B ∧ B ≤ T) :
    0 < S ∧ 0 < B ∧ τ * τ * τ ≤ S * S ∧ τ * τ * τ ≤ S * S * S ∧ 4 * (S * S) ≤ L ∧ 4 * (S * S * S) ≤ L ∧
    4 * (S / B) ≤ L ∧ 4 * (S * S / B) ≤ L ∧ 4 * (S * S * S / (B * B)) ≤ L ∧ 4 * (1 / B) ≤ L ∧ 4 * S ≤ L := by
  have hτ := hT.pos
  have h1 := tau_le hC hT
  have hT1 := hT.one
  have hS0 : 0 < S := hτ.trans_le hS.1
  have hB0 : 0 < B := hτ.trans_le hB.1
  have ss : τ * τ ≤ S * S := mul_le_mul hS.1 hS.1 hτ.le hS0.le
  have ss0 : 0 < τ * τ := by positivity
  have ss2 : S * S ≤ T * T := mul_le_mul hS.2 hS.2 hS0.le (by linarith)
  have sss2 : S * S * S ≤ T * T * T := mul_le_mul ss2 hS.2 hS0.le (by positivity)
  have iB : 1 / B ≤ T := by
    rw [div_le_iff₀ hB0]
    have := mul_le_mul_of_nonneg_left hB.1 (show 0 ≤ T by linarith)
    have e := hT.inv
    linarith
  have iB0 : 0 ≤ 1 / B := by positivity
  have iBB : 1 / B * (1 / B) ≤ T * T := mul_le_mul iB iB iB0 (by linarith)
  have hL := hT.large
  have g2 : T ≤ T * T := by nlinarith
  have g3 : T * T ≤ T * T * T := by nlinarith [mul_nonneg (show 0 ≤ T by linarith) (show 0 ≤ T by linarith)]
  have g4 : T * T * T ≤ T * T * T * T := le_mul_of_one_le_right (by positivity) hT1
  have g5 : T * T * T * T ≤ T * T * T * T * T := le_mul_of_one_le_right (by positivity) hT1
  refine ⟨hS0, hB0, ?_, ?_, by linarith, by linarith, ?_, ?_, ?_, by linarith, by linarith⟩
  · refine le_trans ?_ ss
    exact mul_le_of_le_one_right ss0.le h1
  · exact mul_le_mul ss hS.1 hτ.le (by positivity)
  · have : S * (1 / B) ≤ T * T := mul_le_mul hS.2 iB iB0 (by linarith)
    rw [div_eq_mul_one_div]; linarith
  · have : S * S * (1 / B) ≤ T * T * T := mul_le_mul ss2 iB iB0 (by positivity)
    rw [div_eq_mul_one_div]; linarith
  · have : S * S * S * (1 / B * (1 / B)) ≤ T * T * T * (T * T) := mul_le_mul sss2 iBB (by positivity) (by positivity)
    have e : S * S * S / (B * B) = S * S * S * (1 / B * (1 / B)) := by field_simp
    rw [e]
    linarith [show T * T * T * (T * T) = T * T * T * T * T by ring]

theorem modest_of {S : ℚ} (hS : S ≤ T) : Modest L S := by
  have := hT.modest
  unfold Modest
  linarith

/-- cube over square, or square over number: the ratios with a radius -/
theorem near_cubes {p q : Nat} {a b : W} {A B S : ℚ} (ha : Fin a) (hb : Fin b) (h1 : Near u p 0 (v a) A S) (h2 : Near u q 0 (v b) B B)
    (hA : |A| ≤ S) (hS : τ ≤ S ∧ S ≤ T) (hB : τ ≤ B ∧ B ≤ T) (hp : 3 * p + 4 ≤ P) (hq : 2 * q + 2 ≤ P) :
    Near u (3 * p + 4 + 2 * (2 * q + 2) + 1) η (v (Num.div (Num.mul (Num.mul a a) a) (Num.mul b b))) (A * A * A / (B * B)) (S * S * S / (B * B)) := by
  obtain ⟨hS0, hB0, b1, b2, b3, b4, b5, b6, b7, b8, b9⟩ := range_facts hC hT hS hB
  obtain ⟨_, _, c1, c2, c3, c4, _⟩ := range_facts hC hT hB hB
  obtain ⟨f1, n1⟩ := near_mul hC hT ha ha h1 h1 hA hA (by omega) (by omega) b3 b1
  have hAA : |A * A| ≤ S * S := by rw [abs_mul]; exact mul_le_mul hA hA (abs_nonneg _) hS0.le
  obtain ⟨f2, n2⟩ := near_mul hC hT f1 ha n1 h1 hAA hA (by omega) (by omega) b4 b2
  obtain ⟨f3, n3⟩ := near_mul hC hT hb hb h2 h2 (abs_of_pos hB0).le (abs_of_pos hB0).le (by omega) (by omega) c3 c1
  have hAAA : |A * A * A| ≤ S * S * S := by rw [abs_mul]; exact mul_le_mul hAA hA (abs_nonneg _) (by positivity)
  have n4 := (near_div hC hT f2 f3 n2 n3 hAAA (by positivity) (by omega) (by omega) b7).2
  have e1 : p + p + 2 + p + 2 + 2 * (q + q + 2) + 1 = 3 * p + 4 + 2 * (2 * q + 2) + 1 := by ring
  rw [e1] at n4
  exact n4

end

/-- the squared lengths of exact sets -/
theorem exact_lengths (hg : RoundedInput g v Fin N D) {s : NSet} (hs : ∀ i ∈ s, i < g.nbC) (hne : ∃ i, i ∈ s) :
    (∃ m, LargestFrom Num.lmin (PairDist (g.exact v) s) m) ∧ ∃ m, SmallestFrom Num.lmax (PairDist (g.exact v) s) m := by
  obtain ⟨i, hi⟩ := hne
  obtain ⟨F, _, hF⟩ := C31_features (exact_input hg) (by decide) (h := Hash.id) (cells := s.elems) (List.ne_nil_of_mem hi) s.nodup hs
  have e : NSet.ofList s.elems = s := NSet.ext (fun a => by simp)
  rw [e] at hF
  exact ⟨⟨_, hF.diam rfl⟩, ⟨_, hF.edge rfl⟩⟩

theorem ratio_near (hC : RangeInput g v Fin u η L N D P) (hT : Moderation u η L ((2 : ℚ) ^ (-200 : Int)) ((2 : ℚ) ^ (200 : Int)))
    {dd : Nat} (hd : ∀ c ∈ g.centers, c.length = dd) {kind : ARKind} (hb : kind.bary = false) (hk : kind ≠ .unknown)
    {cc : NSet} {i : Nat} (hni : i ∉ cc) (hs : ∀ j ∈ cc.insert i, j < g.nbC) {f : Feats W}
    (hf : NearFeats g v Fin u η D kind (cc.insert i) f) (hF : FinFeats g v Fin L kind (cc.insert i) f)
    (hP : 20 * (D + (cc.insert i).card + dd + 1) ≤ P) :
    RatioNear g v u η D dd kind (cc.insert i) (arValue g.dim kind cc f) := by
  intro hM
  have hR := hC.arith
  have hu := hR.nonneg
  have hη := hR.small
  have hg := hC.input
  have hcard : (cc.insert i).card = cc.card + 1 := NSet.card_insert hni
  obtain ⟨⟨dm, hdm⟩, ⟨em, hem⟩⟩ := exact_lengths hg hs ⟨i, NSet.mem_insert.2 (Or.inl rfl)⟩
  generalize hsd : cc.insert i = s at *
  have mI : (2 : ℚ) ^ (-200 : Int) ≤ measureOf (g.exact v) s ∧ measureOf (g.exact v) s ≤ (2 : ℚ) ^ (200 : Int) := hM.measure
  have fM := hF.measure (modest_of hC hT mI.2)
  have nM := hf.measure fM
  obtain ⟨m0, _, _⟩ := range_facts hC hT mI mI
  have small : ∀ {S : ℚ}, (2 : ℚ) ^ (-200 : Int) ≤ S → η ≤ u * S := by
    intro S hS
    refine hT.eta.trans (mul_le_mul_of_nonneg_left (le_trans ?_ hS) hu)
    have h1 := tau_le hC hT
    have h0 := hT.pos
    have h2 : (2 : ℚ) ^ (-200 : Int) * (2 : ℚ) ^ (-200 : Int) ≤ 1 := mul_le_one₀ h1 h0.le h1
    exact mul_le_of_le_one_left h0.le h2
  have one := hR.count 1 (by have := hC.two; omega)
  have none : Near u 0 0 (v (Num.ofNat 1 : W)) 1 1 := by
    rw [one.2, Nat.cast_one]; exact Near.refl hu 0 le_rfl zero_le_one
  have up : ∀ {p : Nat} {x A S : ℚ}, Near u p η x A S → p ≤ 20 * (D + s.card + dd + 1) → 0 ≤ S → Near u (20 * (D + s.card + dd + 1)) η x A S :=
    fun h hp hS => h.mono hu hp le_rfl hη le_rfl hS
  have up0 : ∀ {p : Nat} {x A S : ℚ}, Near u p 0 x A S → p ≤ 20 * (D + s.card + dd + 1) → 0 ≤ S → Near u (20 * (D + s.card + dd + 1)) η x A S :=
    fun h hp hS => h.mono hu hp hη le_rfl le_rfl hS
  have hI := internal_nonneg hR hg s
  have hE := external_nonneg hR hg hs
  have diam : kind.geom = true → (2 : ℚ) ^ (-200 : Int) ≤ dm ∧ dm ≤ (2 : ℚ) ^ (200 : Int) ∧ 0 < dm ∧ Fin f.sqDiam ∧
      Near u (2 * dd + 3) 0 (v f.sqDiam) dm dm := by
    intro hge
    have hr : (2 : ℚ) ^ (-200 : Int) ≤ dm ∧ dm ≤ (2 : ℚ) ^ (200 : Int) := hM.diam hge dm hdm
    have h0 : 0 < dm := hT.pos.trans_le hr.1
    have hfin := fin_diam hC hd (by omega) hs (hf.diam hge) hdm (modest_of hC hT hr.2)
    have n1 := (near_diam hR hg hd hs (hf.diam hge) hdm hfin).absorb hu (small hr.1) h0.le
    exact ⟨hr.1, hr.2, h0, hfin, n1.mono hu (by omega) le_rfl le_rfl le_rfl h0.le⟩
  have ext : kind.weights = true → ((2 : ℚ) ^ (-200 : Int) ≤ externalWeight (g.exact v) s + 4 * internalWeight (g.exact v) s ∧
      externalWeight (g.exact v) s + 4 * internalWeight (g.exact v) s ≤ (2 : ℚ) ^ (200 : Int)) ∧
      |externalWeight (g.exact v) s| ≤ externalWeight (g.exact v) s + 4 * internalWeight (g.exact v) s ∧ Fin f.ext ∧
      Near u (D + 4 * s.card + 1) 0 (v f.ext) (externalWeight (g.exact v) s) (externalWeight (g.exact v) s + 4 * internalWeight (g.exact v) s) := by
    intro hw
    have hr : (2 : ℚ) ^ (-200 : Int) ≤ externalWeight (g.exact v) s + 4 * internalWeight (g.exact v) s ∧
      externalWeight (g.exact v) s + 4 * internalWeight (g.exact v) s ≤ (2 : ℚ) ^ (200 : Int) := hM.external hw
    have hfin := hF.ext hw (modest_of hC hT hr.2)
    have n1 : Near u (D + 2 * s.card + 1) ((2 * s.card : Nat) * η) (v f.ext) (externalWeight (g.exact v) s)
        (externalWeight (g.exact v) s + 4 * internalWeight (g.exact v) s) := by
      have := hf.ext hw hfin; push_cast; exact this
    have n2 := n1.absorb hu (small hr.1) (by linarith)
    exact ⟨hr, by rw [abs_of_nonneg hE]; linarith, hfin, n2.mono hu (by omega) le_rfl le_rfl le_rfl (by linarith)⟩
  cases kind with
  | diamOverRadius =>
    obtain ⟨d1, d2, d0, d3, d4⟩ := diam rfl
    obtain ⟨_, _, _, _, _, _, r5, _⟩ := range_facts hC hT ⟨d1, d2⟩ mI
    refine ⟨overRadius (g.exact v) s dm, ⟨dm, hdm, rfl⟩, ?_⟩
    show Near u _ η (v (xOverRadius g.dim f.sqDiam f)) (overRadius (g.exact v) s dm) (overRadius (g.exact v) s dm)
    unfold xOverRadius overRadius
    have hdim : (g.exact v).dim = g.dim := rfl
    rw [hdim]
    by_cases h2 : g.dim = 2
    · rw [if_pos h2, if_pos h2]
      refine up (near_div hC hT d3 fM d4 nM (abs_of_pos d0).le m0 (by omega) (by omega) r5).2 (by omega) ?_
      show 0 ≤ dm / measureOf (g.exact v) s
      positivity
    · rw [if_neg h2, if_neg h2]
      refine up (near_cubes hC hT d3 fM d4 nM (abs_of_pos d0).le ⟨d1, d2⟩ mI (by omega) (by omega)) (by omega) ?_
      show 0 ≤ dm * dm * dm / (measureOf (g.exact v) s * measureOf (g.exact v) s)
      positivity
  | diamOverMinEdge =>
    obtain ⟨d1, d2, d0, d3, d4⟩ := diam rfl
    refine ⟨_, ⟨dm, em, hdm, hem, rfl⟩, ?_⟩
    show Near u _ η (v (if cc.card = 1 then f.sqDiam else Num.div f.sqDiam f.sqMin)) (if s.card = 2 then dm else dm / em) (if s.card = 2 then dm else dm / em)
    by_cases h2 : s.card = 2
    · rw [if_pos h2, if_pos (by omega)]
      exact up0 d4 (by omega) d0.le
    · rw [if_neg h2, if_neg (by omega)]
      have eI : (2 : ℚ) ^ (-200 : Int) ≤ em ∧ em ≤ (2 : ℚ) ^ (200 : Int) := hM.edge rfl h2 em hem
      obtain ⟨_, e0, _, _, _, _, r5, _⟩ := range_facts hC hT ⟨d1, d2⟩ eI
      have n1 := (near_edge hR hg hd hs (hf.diam rfl) d3 (hf.edge rfl) hem).absorb hu (small eI.1) e0.le
      have fe : Fin f.sqMin := by
        rcases (hf.edge rfl).1 with hmax | ⟨a, ha, b, hb, hab, hval⟩
        · rw [hmax]; exact hR.limits.1
        · have hle := (lt_false hR hg).1 ((hf.diam rfl).2.2 _ ⟨a, ha, b, hb, hab, hval⟩)
          refine hR.bound _ _ d3 ?_ hle
          rw [hval]; exact dist_nonneg hR hg _ _
      refine up (near_div hC hT d3 fe d4 n1 (abs_of_pos d0).le e0 (by omega) (by omega) r5).2 (by omega) ?_
      positivity
  | diameter =>
    obtain ⟨d1, d2, d0, d3, d4⟩ := diam rfl
    exact ⟨dm, hdm, up0 d4 (by omega) d0.le⟩
  | overMeasure =>
    obtain ⟨_, _, _, _, _, _, _, _, _, r8, _⟩ := range_facts hC hT mI mI
    refine ⟨1 / measureOf (g.exact v) s, ?_, ?_⟩
    · show _ = ((1 : Nat) : ℚ) / measureOf (g.exact v) s
      rw [Nat.cast_one]
    · refine up (near_div hC hT one.1 fM none nM (by simp) m0 (by omega) (by omega) r8).2 (by omega) ?_
      show 0 ≤ 1 / measureOf (g.exact v) s
      positivity
  | overInternal =>
    have iI : (2 : ℚ) ^ (-200 : Int) ≤ internalWeight (g.exact v) s ∧ internalWeight (g.exact v) s ≤ (2 : ℚ) ^ (200 : Int) := hM.internal rfl
    obtain ⟨i0, _, _, _, _, _, _, _, _, r8, _⟩ := range_facts hC hT iI iI
    have fI := hF.int rfl (modest_of hC hT iI.2)
    refine ⟨1 / internalWeight (g.exact v) s, ?_, ?_⟩
    · show _ = ((1 : Nat) : ℚ) / internalWeight (g.exact v) s
      rw [Nat.cast_one]
    · refine up (near_div hC hT one.1 fI none (hf.int rfl fI) (by simp) i0 (by omega) (by omega) r8).2 (by omega) ?_
      show 0 ≤ 1 / internalWeight (g.exact v) s
      positivity
  | perimOverRadius =>
    obtain ⟨sI, sA, fE, nE⟩ := ext rfl
    obtain ⟨s0, _, b1, b2, b3, b4, b5, b6, b7, b8, b9⟩ := range_facts hC hT sI mI
    have hdim : (g.exact v).dim = g.dim := rfl
    refine ⟨_, rfl, ?_⟩
    show Near u _ η (v (if g.dim = 2 then Num.div (Num.mul f.ext f.ext) f.measure
      else Num.div (Num.mul (Num.mul f.ext f.ext) f.ext) (Num.mul f.measure f.measure))) (if (g.exact v).dim = 2 then
        externalWeight (g.exact v) s * externalWeight (g.exact v) s / measureOf (g.exact v) s
        else externalWeight (g.exact v) s * externalWeight (g.exact v) s * externalWeight (g.exact v) s /
          (measureOf (g.exact v) s * measureOf (g.exact v) s)) (if (g.exact v).dim = 2 then _ else _)
    rw [hdim]
    by_cases h2 : g.dim = 2
    · rw [if_pos h2, if_pos h2, if_pos h2]
      obtain ⟨f1, n1⟩ := near_mul hC hT fE fE nE nE sA sA (by omega) (by omega) b3 b1
      refine up (near_div hC hT f1 fM n1 nM ?_ m0 (by omega) (by omega) b6).2 (by omega) (by positivity)
      rw [abs_mul]
      exact mul_le_mul sA sA (abs_nonneg _) s0.le
    · rw [if_neg h2, if_neg h2, if_neg h2]
      exact up (near_cubes hC hT fE fM nE nM sA sI mI (by omega) (by omega)) (by omega) (by positivity)
  | external =>
    obtain ⟨sI, sA, fE, nE⟩ := ext rfl
    exact ⟨_, rfl, up0 nE (by omega) ((abs_nonneg _).trans sA)⟩
  | maxBaryOverRadius => cases hb
  | maxOverMinBary => cases hb
  | algebraic =>
    obtain ⟨sI, sA, fE, nE⟩ := ext rfl
    obtain ⟨s0, _, _, _, _, _, b5, _⟩ := range_facts hC hT sI mI
    refine ⟨_, rfl, up (near_div hC hT fE fM nE nM sA m0 (by omega) (by omega) b5).2 (by omega) ?_⟩
    show 0 ≤ (externalWeight (g.exact v) s + 4 * internalWeight (g.exact v) s) / measureOf (g.exact v) s
    positivity
  | unknown => exact absurd rfl hk

end CoMMA
