import Verif.Lemmas.WholeTurns
/-! # Lines coupled by distance, with whole-number centers -/

set_option linter.unusedSectionVars false

namespace CoMMA

/-! ## Couplings that stand for whole numbers -/

/-- The couplings of a graph are the numbers `ψ v`, and their comparisons are those of `v`. -/
structure Encoded {W : Type} [Num W] (g : Graph W) (coupling : Coupling) (K : Nat → Nat → Int → Prop) (ψ : Int → W)
    (less strong : Int → Int → Prop) : Prop where
  of : ∀ i n w, CouplingOf g coupling i n w ↔ ∃ v, K i n v ∧ w = ψ v
  lt : ∀ i n m u v, K i n u → K i m v → (Num.lt (ψ u) (ψ v) = true ↔ less u v)
  pos : ∀ i n v, K i n v → Num.lt (Num.ofNat 0) (ψ v) = true
  tenth : ∀ i n m u v, K i n u → K i m v → (Num.lt (Num.mul Num.c090 (ψ u)) (ψ v) = true ↔ strong u v)

section Encoded

variable {W W' : Type} [Num W] [Num W'] {g : Graph W} {g' : Graph W'} {coupling : Coupling} {K : Nat → Nat → Int → Prop} {ψ : Int → W} {ψ' : Int → W'}
  {less strong : Int → Int → Prop}

/-- `v` belongs to a strong coupling -/
def StrongNumber (K : Nat → Nat → Int → Prop) (less strong : Int → Int → Prop) (i n : Nat) (v : Int) : Prop :=
  K i n v ∧ ∃ l u, K i l u ∧ (∀ m x, K i m x → ¬ less u x) ∧ strong u v

theorem Encoded.isStrong (h : Encoded g coupling K ψ less strong) {i n : Nat} {w : W} :
    StrongCoupling g coupling i n w ↔ ∃ v, StrongNumber K less strong i n v ∧ w = ψ v := by
  constructor
  · rintro ⟨h1, m, ⟨h2, h3⟩, h4⟩
    obtain ⟨v, k1, rfl⟩ := (h.of _ _ _).1 h1
    rcases h3 with ⟨l, h3⟩ | rfl
    · obtain ⟨u, k2, rfl⟩ := (h.of _ _ _).1 h3
      refine ⟨v, ⟨k1, l, u, k2, fun m x hx hlt => ?_, (h.tenth _ _ _ _ _ k2 k1).1 h4⟩, rfl⟩
      have := h2 m _ ((h.of _ _ _).2 ⟨x, hx, rfl⟩)
      rw [(h.lt _ _ _ _ _ k2 hx).2 hlt] at this
      cases this
    · have := h2 n _ h1
      rw [h.pos _ _ _ k1] at this
      cases this
  · rintro ⟨v, ⟨k1, l, u, k2, h2, h3⟩, rfl⟩
    refine ⟨(h.of _ _ _).2 ⟨v, k1, rfl⟩, ψ u, ⟨fun m w hw => ?_, Or.inl ⟨l, (h.of _ _ _).2 ⟨u, k2, rfl⟩⟩⟩, (h.tenth _ _ _ _ _ k2 k1).2 h3⟩
    obtain ⟨x, hx, rfl⟩ := (h.of _ _ _).1 hw
    rw [← Bool.not_eq_true, h.lt _ _ _ _ _ k2 hx]
    exact h2 m x hx

theorem Encoded.best (h : Encoded g coupling K ψ less strong) {free : Nat → Prop} {i x : Nat} :
    BestOf (ByCoupling g coupling free i) x ↔ ∃ v, free x ∧ StrongNumber K less strong i x v ∧
      ∀ n u, free n → StrongNumber K less strong i n u → ¬ less v u ∧ (less u v ∨ x ≤ n) := by
  constructor
  · rintro ⟨w, ⟨h1, h2⟩, h3⟩
    obtain ⟨v, k2, rfl⟩ := h.isStrong.1 h2
    refine ⟨v, h1, k2, fun n u hn hu => ?_⟩
    have := h3 n _ ⟨hn, h.isStrong.2 ⟨u, hu, rfl⟩⟩
    rwa [← Bool.not_eq_true, h.lt _ _ _ _ _ k2.1 hu.1, h.lt _ _ _ _ _ hu.1 k2.1] at this
  · rintro ⟨v, h1, h2, h3⟩
    refine ⟨ψ v, ⟨h1, h.isStrong.2 ⟨v, h2, rfl⟩⟩, ?_⟩
    rintro n w ⟨hn, hw⟩
    obtain ⟨u, hu, rfl⟩ := h.isStrong.1 hw
    rw [← Bool.not_eq_true, h.lt _ _ _ _ _ h2.1 hu.1, h.lt _ _ _ _ _ hu.1 h2.1]
    exact h3 n u hn hu

theorem Encoded.strongAlike (h : Encoded g coupling K ψ less strong) (h' : Encoded g' coupling K ψ' less strong) : StrongAlike g g' coupling := by
  intro i n
  constructor
  · rintro ⟨w, hw⟩
    obtain ⟨v, hv, _⟩ := h.isStrong.1 hw
    exact ⟨_, h'.isStrong.2 ⟨v, hv, rfl⟩⟩
  · rintro ⟨w, hw⟩
    obtain ⟨v, hv, _⟩ := h'.isStrong.1 hw
    exact ⟨_, h.isStrong.2 ⟨v, hv, rfl⟩⟩

theorem Encoded.alike (h : Encoded g coupling K ψ less strong) (h' : Encoded g' coupling K ψ' less strong)
    (hs : ∀ i n d, StepDir g i n d → ∃ d', StepDir g' i n d') : CouplingsAlike g g' coupling where
  step := hs
  best free i x hb := h'.best.2 (h.best.1 hb)
  none free i hn n w hw := by
    obtain ⟨v, hv⟩ := (h.strongAlike h' i n).2 ⟨w, hw.2⟩
    exact hn n v ⟨hw.1, hv⟩

end Encoded

theorem step_convert {W W' : Type} [Num W] [Num W'] {φ : Int → W} {ψ : Int → W'} {z : Graph Int} :
    ∀ i n d, StepDir (z.convert φ) i n d → ∃ d', StepDir (z.convert ψ) i n d' := by
  rintro i n d ⟨ci, cn, h1, h2, _⟩
  obtain ⟨c, h1, _⟩ := centers_convert.1 h1
  obtain ⟨d, h2, _⟩ := centers_convert.1 h2
  exact ⟨_, _, _, centers_convert.2 ⟨c, h1, rfl⟩, centers_convert.2 ⟨d, h2, rfl⟩, rfl⟩

/-! ## Squared distances -/

open Dbl

/-- `v` is the squared distance of two neighbours -/
def DistanceOf (z : Graph Int) (i n : Nat) (v : Int) : Prop :=
  Adj z.rowPtr z.colInd i n ∧ ∃ ci cn, z.centers[i]? = some ci ∧ z.centers[n]? = some cn ∧ v = wholeDist2 ci cn

theorem wholeDist2_real {lo hi : ℝ} (c d : List Int) :
    @dist2 ℝ (realNum lo hi) (c.map (fun z : Int => (z : ℝ))) (d.map (fun z : Int => (z : ℝ))) = (wholeDist2 c d : ℝ) := by
  unfold dist2 wholeDist2
  rw [Dbl.sumUp_real]
  induction c generalizing d with
  | nil => simp
  | cons x c ih =>
    cases d with
    | nil => simp
    | cons y d =>
      simp only [List.map_cons, List.zipWith_cons_cons, List.sum_cons]
      rw [ih d]
      push_cast
      rfl

variable {D : Nat} {z : Graph Int} (hc : ClearDistances z.rowPtr z.colInd z.centers) (hl : ∀ c ∈ z.centers, c.length = D)

include hc hl

theorem clear_dist {i n : Nat} {ci cn : List Int} (ha : Adj z.rowPtr z.colInd i n) (h1 : z.centers[i]? = some ci) (h2 : z.centers[n]? = some cn) :
    dist2 (ci.map dblOf) (cn.map dblOf) = dblOf (wholeDist2 ci cn) ∧ 1 ≤ wholeDist2 ci cn ∧ wholeDist2 ci cn ≤ 2 ^ 44 := by
  let _ := realNum 0 (2 ^ 52)
  obtain ⟨a1, a2⟩ := hc.apart i n ci cn ha h1 h2
  obtain ⟨b1, b2⟩ := hc.coords ci (List.mem_of_getElem? h1)
  obtain ⟨_, b3⟩ := hc.coords cn (List.mem_of_getElem? h2)
  have hI : ExactReal := @ExactReal.mk (realNum 0 (2 ^ 52)) (fun _ _ => rfl) (fun _ _ => rfl) (fun _ _ => rfl) (fun _ _ => rfl) (fun _ _ => rfl)
    (fun _ => rfl) (fun _ => rfl) (by show (0 : ℝ) < 1; norm_num) (by show (2 : ℝ) ^ 51 < 2 ^ 52; norm_num)
  obtain ⟨⟨v, e1, e2, e3⟩, e4⟩ := dist_whole hI (M := 2 ^ 21) (by norm_num) ((hl _ (List.mem_of_getElem? h1)).trans (hl _ (List.mem_of_getElem? h2)).symm)
    b1 b2 b3 a2 a1
  rw [wholeDist2_real] at e2 e4
  have e5 : wholeDist2 ci cn = v := by exact_mod_cast e2
  have e6 : 1 ≤ wholeDist2 ci cn := by exact_mod_cast e4
  subst e5
  refine ⟨e1, e6, ?_⟩
  have : (wholeDist2 ci cn).natAbs ≤ 3 * (2 ^ 21 * 2 ^ 21) := e3
  omega

omit hc hl in
theorem inv_dbl {v : Int} (h1 : 1 ≤ v) (h2 : v ≤ 2 ^ 44) : Num.div (Num.ofNat 1) (dblOf v) = roundInt 1 v.toNat 0 := by
  obtain ⟨k, rfl⟩ := Int.eq_ofNat_of_zero_le (show 0 ≤ v by omega)
  exact whole_div (x := 1) (y := k) (by norm_num) (by omega) (by omega)

omit hc hl in
theorem inv_dbl_lt {u v : Int} (u1 : 1 ≤ u) (u2 : u ≤ 2 ^ 44) (v1 : 1 ≤ v) (v2 : v ≤ 2 ^ 44) :
    Num.lt (Num.div (Num.ofNat 1) (dblOf u)) (Num.div (Num.ofNat 1) (dblOf v)) = true ↔ v < u := by
  rw [inv_dbl u1 u2, inv_dbl v1 v2]
  show decide ((roundInt 1 u.toNat 0).code < (roundInt 1 v.toNat 0).code) = true ↔ _
  rw [decide_eq_true_eq]
  have key : ∀ {u v : Int}, 1 ≤ u → u ≤ 2 ^ 44 → 1 ≤ v → v ≤ 2 ^ 44 → v < u → (roundInt 1 u.toNat 0).code < (roundInt 1 v.toNat 0).code := by
    intro u v u1 u2 v1 v2 h
    have k1 : (0 : ℚ) < (v.toNat : ℚ) := by exact_mod_cast (by omega : 0 < v.toNat)
    have k2 : (0 : ℚ) < (u.toNat : ℚ) := by exact_mod_cast (by omega : 0 < u.toNat)
    refine round_frac_lt (by omega) (by omega) (by norm_num; omega) (by norm_num; omega) ?_ ?_
    · calc u.toNat * v.toNat ≤ 2 ^ 44 * 2 ^ 44 := Nat.mul_le_mul (by omega) (by omega)
        _ ≤ 2 ^ 102 := by norm_num
    · rw [Int.cast_one]
      exact one_div_lt_one_div_of_lt k1 (by exact_mod_cast (by omega : v.toNat < u.toNat))
  constructor
  · intro h
    by_contra hcon
    rcases (not_lt.1 hcon).lt_or_eq with h2 | h2
    · have := key v1 v2 u1 u2 h2
      omega
    · rw [h2] at h
      omega
  · exact key u1 u2 v1 v2

omit hc hl in
theorem inv_dbl_pos {v : Int} (v1 : 1 ≤ v) (v2 : v ≤ 2 ^ 44) : Num.lt (Num.ofNat 0) (Num.div (Num.ofNat 1) (dblOf v)) = true := by
  rw [inv_dbl v1 v2]
  have h := round_frac_lt (p := 0) (q := 1) (c := 1) (d := v.toNat) (by omega) (by omega) (by simp) (by norm_num) (by omega) (by
    have k1 : (0 : ℚ) < (v.toNat : ℚ) := by exact_mod_cast (by omega : 0 < v.toNat)
    simp only [Int.cast_zero, zero_div, Int.cast_one]
    positivity)
  have e0 : (roundInt 0 1 0).code = (Num.ofNat 0 : Dbl).code := by decide
  rw [e0] at h
  exact decide_eq_true h

omit hc hl in
theorem inv_value {v : Int} (v1 : 1 ≤ v) (v2 : v ≤ 2 ^ 44) : (roundInt 1 v.toNat 0).Finite ∧
    |(roundInt 1 v.toNat 0).value * v - 1| ≤ 1 / 2 ^ 53 := by
  have k1 : (1 : ℚ) ≤ (v.toNat : ℚ) := by exact_mod_cast (by omega : 1 ≤ v.toNat)
  have k2 : (v.toNat : ℚ) ≤ 2 ^ 44 := by exact_mod_cast (by omega : v.toNat ≤ 2 ^ 44)
  have k3 : (v : ℚ) = (v.toNat : ℚ) := by exact_mod_cast (by omega : v = (v.toNat : Int))
  have hpos : (0 : ℚ) < (v.toNat : ℚ) := by linarith
  have hf : (roundInt 1 v.toNat 0).Finite := by
    refine roundInt_fits (by omega) ?_
    rw [zpow_zero, mul_one, Int.cast_one, abs_of_nonneg (by positivity)]
    refine le_trans ((div_le_one hpos).2 k1) (le_trans ?_ dbl_largest)
    exact one_le_zpow₀ (by norm_num) (by norm_num)
  refine ⟨hf, ?_⟩
  have err := roundInt_error (n := 1) (d := v.toNat) (e := 0) (by omega) hf (Or.inr (by
    rw [zpow_zero, mul_one, Int.cast_one, abs_of_nonneg (by positivity), le_div_iff₀ hpos]
    calc (2 : ℚ) ^ (-1022 : Int) * (v.toNat : ℚ) ≤ (2 : ℚ) ^ (-44 : Int) * 2 ^ 44 :=
          mul_le_mul (zpow_le_zpow_right₀ (by norm_num) (by norm_num)) k2 (by positivity) (by positivity)
      _ = 1 := by norm_num))
  rw [zpow_zero, mul_one, Int.cast_one, abs_of_nonneg (a := 1 / (v.toNat : ℚ)) (by positivity),
    show ((2 : ℚ) ^ (-53 : Int)) = 1 / 2 ^ 53 by norm_num] at err
  rw [k3]
  calc |(roundInt 1 v.toNat 0).value * (v.toNat : ℚ) - 1| = |(roundInt 1 v.toNat 0).value - 1 / (v.toNat : ℚ)| * (v.toNat : ℚ) := by
        rw [← abs_of_pos hpos, ← abs_mul, abs_of_pos hpos]
        congr 1
        field_simp
    _ ≤ 1 / 2 ^ 53 * (1 / (v.toNat : ℚ)) * (v.toNat : ℚ) := mul_le_mul_of_nonneg_right err hpos.le
    _ = 1 / 2 ^ 53 := by field_simp

omit hc hl in
theorem inv_dbl_tenth {u v : Int} (u1 : 1 ≤ u) (u2 : u ≤ 2 ^ 44) (v1 : 1 ≤ v) (v2 : v ≤ 2 ^ 44) (hne : 10 * u ≠ 9 * v) :
    Num.lt (Num.mul Num.c090 (Num.div (Num.ofNat 1) (dblOf u))) (Num.div (Num.ofNat 1) (dblOf v)) = true ↔ 9 * v < 10 * u := by
  rw [inv_dbl u1 u2, inv_dbl v1 v2]
  obtain ⟨f1, f2⟩ := c090_value
  obtain ⟨g1, g2⟩ := inv_value u1 u2
  obtain ⟨k1, k2⟩ := inv_value v1 v2
  obtain ⟨n, e, h1, h2⟩ := mul_eq f1 g1
  rw [f2] at h2
  show decide ((mul Num.c090 (roundInt 1 u.toNat 0)).code < (roundInt 1 v.toNat 0).code) = true ↔ _
  rw [decide_eq_true_eq, ← value_lt, h1]
  have U0 : (1 : ℚ) ≤ u := by exact_mod_cast u1
  have U1 : (u : ℚ) ≤ 2 ^ 44 := by exact_mod_cast u2
  have V0 : (1 : ℚ) ≤ v := by exact_mod_cast v1
  have V1 : (v : ℚ) ≤ 2 ^ 44 := by exact_mod_cast v2
  generalize (roundInt 1 u.toNat 0).value = x at *
  generalize (roundInt 1 v.toNat 0).value = y at *
  obtain ⟨x1, x2⟩ := abs_le.1 g2
  obtain ⟨y1, y2⟩ := abs_le.1 k2
  have hx0 : 0 < x := by
    by_contra hcon
    have : x * u ≤ 0 := mul_nonpos_of_nonpos_of_nonneg (not_lt.1 hcon) (by linarith)
    norm_num at x1
    linarith
  have hxl : (2 : ℚ) ^ (-46 : Int) ≤ x := by
    rw [show ((2 : ℚ) ^ (-46 : Int)) = 1 / 2 ^ 46 by norm_num]
    norm_num at x1 U1 ⊢
    nlinarith
  have hxu : x ≤ 2 := by
    norm_num at x2
    nlinarith
  have hE0 : (0 : ℚ) < 8106479329266893 / 2 ^ 53 * x := by positivity
  have hf : (roundInt n 1 e).Finite := by
    refine roundInt_fits (by omega) ?_
    rw [h2, abs_of_pos hE0]
    refine le_trans (b := 2 ^ 2) ?_ (le_trans ?_ dbl_largest)
    · norm_num; linarith
    · rw [show (2 : ℚ) ^ 2 = (2 : ℚ) ^ (2 : Int) by norm_num]
      exact zpow_le_zpow_right₀ (by norm_num) (by norm_num)
  have err := roundInt_error (n := n) (d := 1) (e := e) (by omega) hf (Or.inr (by
    rw [h2, abs_of_pos hE0]
    refine le_trans (b := (2 : ℚ) ^ (-47 : Int)) (zpow_le_zpow_right₀ (by norm_num) (by norm_num)) ?_
    rw [show ((2 : ℚ) ^ (-46 : Int)) = 1 / 2 ^ 46 by norm_num] at hxl
    rw [show ((2 : ℚ) ^ (-47 : Int)) = 1 / 2 ^ 47 by norm_num]
    norm_num at hxl ⊢
    linarith))
  rw [h2, abs_of_pos hE0, show ((2 : ℚ) ^ (-53 : Int)) = 1 / 2 ^ 53 by norm_num] at err
  generalize (roundInt n 1 e).value = p at *
  obtain ⟨p1, p2⟩ := abs_le.1 err
  -- everything multiplied by `u * v`
  have uv : (0 : ℚ) < u * v := by positivity
  have P1 : (9 / 10 - 1 / 2 ^ 51) * v ≤ p * (u * v) := by
    have h3 : (9 / 10 - 1 / 2 ^ 52) * x ≤ p := by norm_num at p1 ⊢; linarith
    have h4 : (9 / 10 - 1 / 2 ^ 52) * (x * u) ≤ p * u := by nlinarith
    have h5 : (9 / 10 - 1 / 2 ^ 51) ≤ p * u := by norm_num at h4 x1 ⊢; linarith
    nlinarith
  have P2 : p * (u * v) ≤ (9 / 10 + 1 / 2 ^ 51) * v := by
    have h3 : p ≤ (9 / 10 + 1 / 2 ^ 52) * x := by norm_num at p2 ⊢; linarith
    have h4 : p * u ≤ (9 / 10 + 1 / 2 ^ 52) * (x * u) := by nlinarith
    have h5 : p * u ≤ (9 / 10 + 1 / 2 ^ 51) := by norm_num at h4 x2 ⊢; linarith
    nlinarith
  have Y1 : (1 - 1 / 2 ^ 53) * u ≤ y * (u * v) := by nlinarith
  have Y2 : y * (u * v) ≤ (1 + 1 / 2 ^ 53) * u := by nlinarith
  norm_num at P1 P2 Y1 Y2 U1 V1
  constructor
  · intro h
    by_contra hcon
    have h3 : (10 : ℚ) * u + 1 ≤ 9 * v := by exact_mod_cast (by omega : 10 * u + 1 ≤ 9 * v)
    have h4 := mul_lt_mul_of_pos_right h uv
    linarith
  · intro h
    have h3 : (9 : ℚ) * v + 1 ≤ 10 * u := by exact_mod_cast (by omega : 9 * v + 1 ≤ 10 * u)
    refine lt_of_mul_lt_mul_right (a := (u : ℚ) * v) ?_ uv.le
    linarith

theorem encoded_dbl : Encoded (z.convert dblOf) .minDistance (DistanceOf z) (fun v => Num.div (Num.ofNat 1) (dblOf v)) (fun u v => v < u)
    (fun u v => 9 * v < 10 * u) := by
  have B : ∀ {i n v}, DistanceOf z i n v → 1 ≤ v ∧ v ≤ 2 ^ 44 := by
    rintro i n v ⟨ha, ci, cn, h1, h2, rfl⟩
    exact (clear_dist hc hl ha h1 h2).2
  refine ⟨fun i n w => ?_, fun i n m u v hu hv => inv_dbl_lt (B hu).1 (B hu).2 (B hv).1 (B hv).2, fun i n v hv => inv_dbl_pos (B hv).1 (B hv).2,
    fun i n m u v hu hv => inv_dbl_tenth (B hu).1 (B hu).2 (B hv).1 (B hv).2 ?_⟩
  · constructor
    · rintro ⟨k, ⟨b, e, f1, f2, f3, f4, f5⟩, di, dn, h1, h2, rfl⟩
      obtain ⟨ci, k1, rfl⟩ := centers_convert.1 h1
      obtain ⟨cn, k2, rfl⟩ := centers_convert.1 h2
      have ha : Adj z.rowPtr z.colInd i n := ⟨b, e, k, f1, f2, f3, f4, f5⟩
      exact ⟨_, ⟨ha, ci, cn, k1, k2, rfl⟩, by rw [(clear_dist hc hl ha k1 k2).1]⟩
    · rintro ⟨v, ⟨ha, ci, cn, h1, h2, rfl⟩, rfl⟩
      have e1 := (clear_dist hc hl ha h1 h2).1
      obtain ⟨b, e, k, f1, f2, f3, f4, f5⟩ := ha
      exact ⟨k, ⟨b, e, f1, f2, f3, f4, f5⟩, _, _, centers_convert.2 ⟨_, h1, rfl⟩, centers_convert.2 ⟨_, h2, rfl⟩, by rw [e1]⟩
  · obtain ⟨a1, ci, cn, h1, h2, rfl⟩ := hu
    obtain ⟨a2, ci', cm, h1', h3, rfl⟩ := hv
    rw [h1] at h1'
    cases h1'
    exact hc.ratio i n m ci cn cm a1 a2 h1 h2 h3

theorem encoded_real {lo hi : ℝ} : @Encoded ℝ (realNum lo hi) (z.convert (fun z : Int => (z : ℝ))) .minDistance (DistanceOf z) (fun v : Int => 1 / (v : ℝ)) (fun u v => v < u)
    (fun u v => 9 * v < 10 * u) := by
  have B : ∀ {i n v}, DistanceOf z i n v → (0 : ℝ) < v := by
    rintro i n v ⟨ha, ci, cn, h1, h2, rfl⟩
    exact_mod_cast (by have := (clear_dist hc hl ha h1 h2).2.1; omega : 0 < wholeDist2 ci cn)
  let _ := realNum lo hi
  have one : ∀ x : ℝ, Num.div (Num.ofNat 1) x = 1 / x := fun x => by show ((1 : Nat) : ℝ) / x = _; rw [Nat.cast_one]
  refine ⟨fun i n w => ?_, fun i n m u v hu hv => ?_, fun i n v hv => ?_, fun i n m u v hu hv => ?_⟩
  · constructor
    · rintro ⟨k, ⟨b, e, f1, f2, f3, f4, f5⟩, di, dn, h1, h2, rfl⟩
      obtain ⟨ci, k1, rfl⟩ := centers_convert.1 h1
      obtain ⟨cn, k2, rfl⟩ := centers_convert.1 h2
      have ha : Adj z.rowPtr z.colInd i n := ⟨b, e, k, f1, f2, f3, f4, f5⟩
      exact ⟨_, ⟨ha, ci, cn, k1, k2, rfl⟩, by rw [wholeDist2_real, one]⟩
    · rintro ⟨v, ⟨ha, ci, cn, h1, h2, rfl⟩, rfl⟩
      obtain ⟨b, e, k, f1, f2, f3, f4, f5⟩ := ha
      exact ⟨k, ⟨b, e, f1, f2, f3, f4, f5⟩, _, _, centers_convert.2 ⟨_, h1, rfl⟩, centers_convert.2 ⟨_, h2, rfl⟩, by rw [wholeDist2_real, one]⟩
  · show decide (1 / (u : ℝ) < 1 / (v : ℝ)) = true ↔ _
    rw [decide_eq_true_eq, one_div_lt_one_div (B hu) (B hv), Int.cast_lt]
  · show decide (((0 : Nat) : ℝ) < 1 / (v : ℝ)) = true
    have := B hv
    rw [decide_eq_true_eq, Nat.cast_zero]
    positivity
  · show decide (9 / 10 * (1 / (u : ℝ)) < 1 / (v : ℝ)) = true ↔ _
    have h1 := B hu
    have h2 := B hv
    rw [decide_eq_true_eq, mul_one_div, div_lt_div_iff₀ h1 h2, one_mul]
    constructor
    · intro h
      have : (9 : ℝ) * v < 10 * u := by linarith
      exact_mod_cast this
    · intro h
      have : (9 : ℝ) * v < 10 * u := by exact_mod_cast h
      linarith

omit hc hl in
theorem strong_alike {W W' : Type} [Num W] [Num W'] {φ : Int → W} {ψ : Int → W'} (hφ : Faithful φ) (hψ : Faithful ψ)
    (hz : SmallWeights z) : StrongAlike (z.convert φ) (z.convert ψ) .maxWeight := by
  intro i n
  constructor
  · rintro ⟨w, hw⟩
    obtain ⟨v, hv, _⟩ := (strong_convert hφ hz).1 hw
    exact ⟨_, (strong_convert hψ hz).2 ⟨v, hv, rfl⟩⟩
  · rintro ⟨w, hw⟩
    obtain ⟨v, hv, _⟩ := (strong_convert hψ hz).1 hw
    exact ⟨_, (strong_convert hφ hz).2 ⟨v, hv, rfl⟩⟩

end CoMMA
