import Verif.Spec.RoundedFeatures
import Verif.Lemmas.Double
import Verif.Lemmas.RoundedFeatures
import Mathlib.Algebra.Order.Round
import Mathlib.Data.Rat.Floor
/-! # Doubles: products, quotients, doubling, counts -/

namespace CoMMA

namespace Dbl

theorem value_eq_zero {a : Dbl} : a.value = 0 ↔ a.code = 0 := by
  have h1 := value_lt (a := a) (b := ⟨0⟩)
  have h2 := value_lt (a := ⟨0⟩) (b := a)
  rw [value_zero] at h1 h2
  simp only at h1 h2
  constructor
  · intro h
    rw [h] at h1 h2
    have := mt h1.2 (lt_irrefl _)
    have := mt h2.2 (lt_irrefl _)
    omega
  · intro h
    have e : a = ⟨0⟩ := by cases a; simp only at h; rw [h]
    rw [e, value_zero]

theorem value_small {k : Int} (hk : k.natAbs ≤ 2 ^ 52) : (⟨k⟩ : Dbl).value = (k : ℚ) * (2 : ℚ) ^ (-1074 : Int) := by
  have hN : valueN k.natAbs = (k.natAbs : ℚ) * (2 : ℚ) ^ (-1074 : Int) := by
    unfold valueN mant expo
    by_cases h : k.natAbs = 2 ^ 52
    · rw [h]
      norm_num
    · have : k.natAbs / 2 ^ 52 = 0 := Nat.div_eq_of_lt (by omega)
      rw [if_pos this, if_pos this]
  unfold value
  simp only
  rw [hN]
  by_cases h : k < 0
  · rw [if_pos h, natAbs_of_neg h]; ring
  · rw [if_neg h, natAbs_of_not_neg h]

/-- the error of rounding, whatever the size -/
theorem roundInt_error_any {n : Int} {d : Nat} (hd : 0 < d) {e : Int} (hf : (roundInt n d e).Finite) :
    |(roundInt n d e).value - (n : ℚ) / d * (2 : ℚ) ^ e| ≤
      (2 : ℚ) ^ (-53 : Int) * |(n : ℚ) / d * (2 : ℚ) ^ e| + (2 : ℚ) ^ (-1075 : Int) := by
  have hp : (0 : ℚ) < (2 : ℚ) ^ (-1075 : Int) := by positivity
  by_cases hbig : (2 : ℚ) ^ (-1022 : Int) ≤ |(n : ℚ) / d * (2 : ℚ) ^ e|
  · exact (roundInt_error hd hf (Or.inr hbig)).trans (by linarith)
  · have hn := roundInt_nearest hd hf (c := ⟨_root_.round ((n : ℚ) / d * (2 : ℚ) ^ e * (2 : ℚ) ^ (1074 : Int))⟩)
    generalize (n : ℚ) / d * (2 : ℚ) ^ e = q at hbig hn ⊢
    refine hn.trans ?_
    have hq : |q * (2 : ℚ) ^ (1074 : Int)| < (2 : ℚ) ^ (52 : Int) := by
      rw [abs_mul, abs_of_pos (show (0 : ℚ) < (2 : ℚ) ^ (1074 : Int) by positivity)]
      have : (2 : ℚ) ^ (52 : Int) = (2 : ℚ) ^ (-1022 : Int) * (2 : ℚ) ^ (1074 : Int) := by rw [← zpow_add₀ (by norm_num)]; norm_num
      rw [this]
      exact mul_lt_mul_of_pos_right (not_le.1 hbig) (by positivity)
    have hr := abs_sub_round (q * (2 : ℚ) ^ (1074 : Int))
    have hk : (_root_.round (q * (2 : ℚ) ^ (1074 : Int))).natAbs ≤ 2 ^ 52 := by
      generalize q * (2 : ℚ) ^ (1074 : Int) = y at hq hr ⊢
      generalize _root_.round y = k at hr ⊢
      rw [abs_lt] at hq
      rw [abs_le] at hr
      have e52 : (2 : ℚ) ^ (52 : Int) = 2 ^ 52 := by norm_num
      rw [e52] at hq
      have h1 : (k : ℚ) < ((2 ^ 52 + 1 : Int) : ℚ) := by push_cast; linarith
      have h2 : ((-(2 ^ 52) - 1 : Int) : ℚ) < (k : ℚ) := by push_cast; linarith
      have h1 := Int.cast_lt.1 h1
      have h2 := Int.cast_lt.1 h2
      omega
    rw [value_small hk]
    have h74 : (2 : ℚ) ^ (1074 : Int) * (2 : ℚ) ^ (-1074 : Int) = 1 := by rw [← zpow_add₀ (by norm_num)]; norm_num
    generalize hk' : _root_.round (q * (2 : ℚ) ^ (1074 : Int)) = k at hr ⊢
    have e1 : (k : ℚ) * (2 : ℚ) ^ (-1074 : Int) - q = -((q * (2 : ℚ) ^ (1074 : Int) - k) * (2 : ℚ) ^ (-1074 : Int)) := by
      rw [sub_mul, mul_assoc, h74]; ring
    rw [e1, abs_neg, abs_mul, abs_of_pos (show (0 : ℚ) < (2 : ℚ) ^ (-1074 : Int) by positivity)]
    have e2 : (2 : ℚ) ^ (-1075 : Int) = 1 / 2 * (2 : ℚ) ^ (-1074 : Int) := by
      rw [show (-1075 : Int) = -1 + -1074 by norm_num, zpow_add₀ (by norm_num)]; norm_num
    have := mul_le_mul_of_nonneg_right hr (show (0 : ℚ) ≤ (2 : ℚ) ^ (-1074 : Int) by positivity)
    have h0 : 0 ≤ (2 : ℚ) ^ (-53 : Int) * |q| := by positivity
    rw [e2]
    exact this.trans (le_add_of_nonneg_left h0)

theorem valueN_double (c : Nat) : ∃ c', valueN c' = 2 * valueN c := by
  by_cases h : c < 2 ^ 52
  · refine ⟨2 * c, ?_⟩
    have h0 : c / 2 ^ 52 = 0 := Nat.div_eq_of_lt h
    unfold valueN mant expo
    rw [if_pos h0, if_pos h0]
    by_cases h2 : 2 * c < 2 ^ 52
    · have h0' : 2 * c / 2 ^ 52 = 0 := Nat.div_eq_of_lt h2
      rw [if_pos h0', if_pos h0']
      push_cast; ring
    · have h1 : 2 * c / 2 ^ 52 = 1 := by omega
      have h3 : 2 ^ 52 + 2 * c % 2 ^ 52 = 2 * c := by omega
      rw [h1, h3, if_neg (by omega), if_neg (by omega)]
      push_cast
      norm_num
      ring
  · refine ⟨c + 2 ^ 52, ?_⟩
    have h1 : (c + 2 ^ 52) / 2 ^ 52 = c / 2 ^ 52 + 1 := by omega
    have h2 : (c + 2 ^ 52) % 2 ^ 52 = c % 2 ^ 52 := by omega
    have h3 : c / 2 ^ 52 ≠ 0 := by omega
    unfold valueN mant expo
    rw [h1, h2, if_neg (by omega), if_neg h3, if_neg (by omega), if_neg h3]
    have : ((c / 2 ^ 52 + 1 : Nat) : Int) - 1075 = 1 + (((c / 2 ^ 52 : Nat) : Int) - 1075) := by push_cast; ring
    rw [this, zpow_add₀ (by norm_num), zpow_one]
    ring

theorem value_double (a : Dbl) : ∃ c : Dbl, c.value = 2 * a.value := by
  obtain ⟨c', hc'⟩ := valueN_double a.code.natAbs
  refine ⟨signed (decide (a.code < 0)) c', ?_⟩
  rw [value_signed, hc']
  unfold value
  by_cases h : a.code < 0
  · simp [h]
  · simp [h]

theorem finite_mul {a b : Dbl} (h0 : a.value ≠ 0 ∨ b.Finite) (h : (mul a b).Finite) : b.Finite := by
  rcases h0 with h0 | h0
  · by_contra hb
    have ha : a.code ≠ 0 := fun hh => h0 (value_eq_zero.2 hh)
    have hbc : b.code ≠ 0 := by
      intro hh
      apply hb
      unfold Finite
      rw [hh]
      decide
    unfold mul at h
    rw [if_neg (by simp [ha, hbc]), if_pos (by rw [isInf_true.2 hb]; simp)] at h
    unfold Finite at h
    rw [natAbs_signed] at h
    omega
  · exact h0

theorem finite_div {a b : Dbl} (h : (div a b).Finite) : a.Finite := by
  by_contra ha
  have ha0 : a.code ≠ 0 := by
    intro hh
    apply ha
    unfold Finite
    rw [hh]
    decide
  unfold div at h
  rw [if_neg ha0, if_pos (by rw [isInf_true.2 ha]; simp)] at h
  unfold Finite at h
  rw [natAbs_signed] at h
  omega

/-- small integers are doubles -/
theorem ofNat_exact {n : Nat} (hn : n ≤ 2 ^ 53) : (roundInt n 1 0).Finite ∧ (roundInt n 1 0).value = n := by
  by_cases h0 : n = 0
  · subst h0
    have : roundInt ((0 : Nat) : Int) 1 0 = ⟨0⟩ := by decide
    rw [this, value_zero]
    exact ⟨by decide, by simp⟩
  · have key : ∃ c : Nat, c < infC ∧ valueN c = n := by
      have hl := log2_bounds (n := n) (by omega)
      obtain ⟨l, hl'⟩ : ∃ l, l = Nat.log2 n := ⟨_, rfl⟩
      rw [← hl'] at hl
      have h1 : 2 ^ l ≤ n := by have := hl.1; rw [zpow_natCast] at this; exact_mod_cast this
      have h2 : n < 2 ^ (l + 1) := by
        have := hl.2
        rw [show ((l : Int) + 1) = ((l + 1 : Nat) : Int) by push_cast; rfl, zpow_natCast] at this
        exact_mod_cast this
      have h3 : l ≤ 53 := by
        by_contra hlt
        have : 2 ^ 54 ≤ 2 ^ l := Nat.pow_le_pow_right (by omega) (by omega)
        omega
      by_cases h53 : n = 2 ^ 53
      · subst h53
        refine ⟨1076 * 2 ^ 52, by decide, ?_⟩
        unfold valueN mant expo
        norm_num
      · have h3 : l ≤ 52 := by
          by_contra hlt
          have : 2 ^ 53 ≤ 2 ^ l := Nat.pow_le_pow_right (by omega) (by omega)
          omega
        have e1 : 2 ^ l * 2 ^ (52 - l) = 2 ^ 52 := by rw [← pow_add]; congr 1; omega
        have e2 : 2 ^ (l + 1) * 2 ^ (52 - l) = 2 ^ 53 := by rw [← pow_add]; congr 1; omega
        have m1 : 2 ^ 52 ≤ n * 2 ^ (52 - l) := by rw [← e1]; exact Nat.mul_le_mul_right _ h1
        have m2 : n * 2 ^ (52 - l) < 2 ^ 53 := by rw [← e2]; exact Nat.mul_lt_mul_of_pos_right h2 (by positivity)
        refine ⟨codeOf ((l : Int) - 52) (n * 2 ^ (52 - l)), ?_, ?_⟩
        · rw [codeOf_eq (by omega)]
          have : ((l : Int) - 52 + 1074).toNat = l + 1022 := by omega
          rw [this]
          unfold infC
          omega
        · rw [valueN_codeOf (by omega) (by omega) (Or.inr m1)]
          have : (2 : ℚ) ^ ((l : Int) - 52) = 1 / (2 : ℚ) ^ (52 - l) := by
            rw [show ((l : Int) - 52) = -((52 - l : Nat) : Int) by omega, zpow_neg, zpow_natCast, one_div]
          rw [this]
          push_cast
          field_simp
    obtain ⟨c, hc, hv⟩ := key
    have hb : (signed false c).Finite := by unfold Finite; rw [natAbs_signed]; exact hc
    have hvb : (signed false c).value = n := by rw [value_signed]; simpa using hv
    have : roundInt (n : Int) 1 0 = signed false c := roundInt_exact (by omega) hb (by rw [hvb]; simp)
    rw [this]
    exact ⟨hb, hvb⟩

end Dbl

theorem near_foldl {W : Type} [Num W] {v : W → ℚ} {Fin : W → Prop} {u : ℚ} (hR : RoundedAdd W v Fin u) {p : Nat} {A S : ℚ} :
    ∀ (l : List W) (x : W), |A| ≤ S → (Fin x → Near u p 0 (v x) A S) → Fin (l.foldl Num.add x) →
      Fin x ∧ (∀ a ∈ l, Fin a) ∧ Near u (p + l.length) 0 (v (l.foldl Num.add x)) (A + (l.map v).sum) (S + (l.map (fun a => |v a|)).sum) := by
  intro l
  induction l generalizing p A S with
  | nil => intro x hA hx hf; exact ⟨hf, by simp, by simpa using hx hf⟩
  | cons a l ih =>
    intro x hA hx hf
    rw [List.foldl_cons] at hf ⊢
    have hA' : |A + v a| ≤ S + |v a| := (abs_add_le _ _).trans (by linarith)
    have hu := hR.nonneg
    obtain ⟨h1, h2, h3⟩ := ih (p := p + 1) (A := A + v a) (S := S + |v a|) (Num.add x a) hA' (fun hf' => by
      obtain ⟨f1, f2⟩ := hR.finite _ _ hf'
      have h := (hx f1).add hu (Near.refl hu p (x := v a) le_rfl (abs_nonneg (v a)))
      have := h.round hu hA' le_rfl (y := v (Num.add x a)) (by rw [add_zero]; exact hR.add _ _ hf')
      simpa using this) hf
    obtain ⟨f1, f2⟩ := hR.finite _ _ h1
    refine ⟨f1, ?_, ?_⟩
    · intro b hb
      rcases List.mem_cons.1 hb with rfl | hb
      · exact f2
      · exact h2 b hb
    · have e1 : p + (a :: l).length = p + 1 + l.length := by rw [List.length_cons]; omega
      rw [e1, List.map_cons, List.map_cons, List.sum_cons, List.sum_cons, ← add_assoc, ← add_assoc]
      exact h3

theorem dbl_reduce : ∀ (k : Nat) (l : List Dbl), l.length ≤ k → ∀ (p : Nat) (s : Dbl) (A S : ℚ), |A| ≤ S →
    (s.Finite → Near ((2 : ℚ) ^ (-53 : Int)) p 0 s.value A S) →
    (Dbl.reduceFrom s l).Finite → s.Finite ∧ (∀ a ∈ l, a.Finite) ∧
      Near ((2 : ℚ) ^ (-53 : Int)) (p + l.length) 0 (Dbl.reduceFrom s l).value (A + (l.map Dbl.value).sum) (S + (l.map (fun a => |a.value|)).sum) := by
  have hR := dbl_rounded
  have hu := hR.nonneg
  intro k
  induction k with
  | zero =>
    intro l hl p s A S hA hs hf
    have : l = [] := List.eq_nil_of_length_eq_zero (by omega)
    subst this
    exact near_foldl hR [] s hA hs hf
  | succ k ih =>
    intro l hl p s A S hA hs hf
    match l, hl, hf with
    | [], _, hf => exact near_foldl hR [] s hA hs hf
    | [a], _, hf => exact near_foldl hR [a] s hA hs hf
    | [a, b], _, hf => exact near_foldl hR [a, b] s hA hs hf
    | [a, b, c], _, hf => exact near_foldl hR [a, b, c] s hA hs hf
    | a :: b :: c :: d :: r, hl, hf =>
      have hA' : |A + (a.value + b.value + (c.value + d.value))| ≤ S + (|a.value| + |b.value| + (|c.value| + |d.value|)) := by
        have h1 := abs_add_le A (a.value + b.value + (c.value + d.value))
        have h2 := abs_add_le (a.value + b.value) (c.value + d.value)
        have h3 := abs_add_le a.value b.value
        have h4 := abs_add_le c.value d.value
        linarith
      have pair : ∀ x y : Dbl, (Dbl.add x y).Finite → x.Finite ∧ y.Finite ∧
          Near ((2 : ℚ) ^ (-53 : Int)) 1 0 (Dbl.add x y).value (x.value + y.value) (|x.value| + |y.value|) := by
        intro x y hxy
        obtain ⟨f1, f2⟩ := hR.finite x y hxy
        have h := (Near.refl hu 0 (x := x.value) le_rfl (abs_nonneg x.value)).add hu
          (Near.refl hu 0 (x := y.value) le_rfl (abs_nonneg y.value))
        have := h.round hu (abs_add_le _ _) le_rfl (y := (Dbl.add x y).value) (by rw [add_zero]; exact hR.add x y hxy)
        exact ⟨f1, f2, by simpa using this⟩
      have four : (Dbl.add (Dbl.add a b) (Dbl.add c d)).Finite → (a.Finite ∧ b.Finite ∧ c.Finite ∧ d.Finite) ∧
          Near ((2 : ℚ) ^ (-53 : Int)) 2 0 (Dbl.add (Dbl.add a b) (Dbl.add c d)).value (a.value + b.value + (c.value + d.value))
            (|a.value| + |b.value| + (|c.value| + |d.value|)) := by
        intro h4
        obtain ⟨f1, f2⟩ := hR.finite _ _ h4
        obtain ⟨a1, a2, a3⟩ := pair a b f1
        obtain ⟨b1, b2, b3⟩ := pair c d f2
        have hs : |a.value + b.value + (c.value + d.value)| ≤ |a.value| + |b.value| + (|c.value| + |d.value|) := by
          have h2 := abs_add_le (a.value + b.value) (c.value + d.value)
          have h3 := abs_add_le a.value b.value
          have h4 := abs_add_le c.value d.value
          linarith
        have := (a3.add hu b3).round hu hs le_rfl (y := (Dbl.add (Dbl.add a b) (Dbl.add c d)).value) (by rw [add_zero]; exact hR.add _ _ h4)
        exact ⟨⟨a1, a2, b1, b2⟩, by simpa using this⟩
      rw [Dbl.reduceFrom] at hf ⊢
      obtain ⟨h1, h2, h3⟩ := ih r (by simp only [List.length_cons] at hl; omega) (p + 4) _ _ _ hA' (fun hf' => by
        obtain ⟨f1, f2⟩ := hR.finite _ _ hf'
        have hS : 0 ≤ S := (abs_nonneg _).trans hA
        have hx := ((hs f1).mono hu (q := p + 2) (by omega) le_rfl le_rfl le_rfl hS).add hu
          ((four f2).2.mono hu (q := p + 2) (by omega) le_rfl le_rfl le_rfl (by positivity))
        have := hx.round hu hA' le_rfl (y := (Dbl.add s (Dbl.add (Dbl.add a b) (Dbl.add c d))).value) (by rw [add_zero]; exact hR.add _ _ hf')
        exact this.mono hu (by omega) (by simp) (by simp) le_rfl ((abs_nonneg _).trans hA')) hf
      obtain ⟨f1, f2⟩ := hR.finite _ _ h1
      obtain ⟨⟨g1, g2, g3, g4⟩, _⟩ := four f2
      refine ⟨f1, ?_, ?_⟩
      · intro x hx
        simp only [List.mem_cons] at hx
        rcases hx with rfl | rfl | rfl | rfl | hx
        · exact g1
        · exact g2
        · exact g3
        · exact g4
        · exact h2 x hx
      · have e1 : p + (a :: b :: c :: d :: r).length = p + 4 + r.length := by simp only [List.length_cons]; omega
        rw [e1]
        simp only [List.map_cons, List.sum_cons]
        have e2 : A + (a.value + (b.value + (c.value + (d.value + (r.map Dbl.value).sum)))) =
            A + (a.value + b.value + (c.value + d.value)) + (r.map Dbl.value).sum := by ring
        have e3 : S + (|a.value| + (|b.value| + (|c.value| + (|d.value| + (r.map (fun a => |a.value|)).sum)))) =
            S + (|a.value| + |b.value| + (|c.value| + |d.value|)) + (r.map (fun a => |a.value|)).sum := by ring
        rw [e2, e3]
        exact h3

/-- doubles as rounded arithmetic -/
theorem dbl_arith : RoundedArith Dbl Dbl.value Dbl.Finite ((2 : ℚ) ^ (-53 : Int)) ((2 : ℚ) ^ (-1075 : Int)) (2 ^ 53) where
  toRoundedAdd := dbl_rounded
  small := by positivity
  lt a b := by
    show decide (a.code < b.code) = _
    simp only [Dbl.value_lt]
  sub a b h := by
    have h : (Dbl.add a (Dbl.neg b)).Finite := h
    obtain ⟨h1, h2⟩ := Dbl.finite_of_add h
    have := dbl_rounded.add a (Dbl.neg b) h
    rw [Dbl.value_neg, ← sub_eq_add_neg] at this
    exact ⟨h1, Dbl.finite_neg.1 h2, this⟩
  two a h := by
    have h2 : (Dbl.roundInt (2 : Nat) 1 0).Finite ∧ (Dbl.roundInt (2 : Nat) 1 0).value = (2 : Nat) := Dbl.ofNat_exact (by norm_num)
    have h : (Dbl.mul (Dbl.roundInt (2 : Nat) 1 0) a).Finite := h
    have ha : a.Finite := Dbl.finite_mul (Or.inl (by rw [h2.2]; norm_num)) h
    refine ⟨ha, ?_⟩
    show (Dbl.mul (Dbl.roundInt (2 : Nat) 1 0) a).value = _
    obtain ⟨n, e, h3, h4⟩ := Dbl.mul_eq h2.1 ha
    rw [h3] at h ⊢
    obtain ⟨c, hc⟩ := Dbl.value_double a
    have := Dbl.roundInt_nearest (by omega) h c
    rw [h4, h2.2, hc] at this
    simp only [Nat.cast_ofNat, sub_self, abs_zero, abs_nonpos_iff] at this
    linarith
  count n hn := Dbl.ofNat_exact hn
  mul a b h0 ha h := by
    have hb : b.Finite := Dbl.finite_mul h0 h
    refine ⟨hb, ?_⟩
    obtain ⟨n, e, h3, h4⟩ := Dbl.mul_eq ha hb
    have h : (Dbl.mul a b).Finite := h
    show |(Dbl.mul a b).value - _| ≤ _
    rw [h3] at h ⊢
    rw [← h4]
    exact Dbl.roundInt_error_any (by omega) h
  div a b hb h0 h := by
    have ha : a.Finite := Dbl.finite_div h
    refine ⟨ha, ?_⟩
    obtain ⟨n, d, e, hd, h3, h4⟩ := Dbl.div_eq ha hb (fun hh => h0 (Dbl.value_eq_zero.2 hh))
    have h : (Dbl.div a b).Finite := h
    show |(Dbl.div a b).value - _| ≤ _
    rw [h3] at h ⊢
    rw [← h4]
    exact Dbl.roundInt_error_any hd h
  reduce l h := by
    obtain ⟨_, h2, h3⟩ := dbl_reduce l.length l le_rfl 0 ⟨0⟩ 0 0 (by simp) (fun _ => by
      rw [Dbl.value_zero]; exact Near.refl dbl_rounded.nonneg 0 le_rfl le_rfl) h
    refine ⟨h2, ?_⟩
    unfold Near at h3
    rw [zero_add, zero_add, zero_add, mul_zero, add_zero] at h3
    exact h3
  bound a b hb h0 h := by
    rw [← Dbl.value_zero, Dbl.value_le] at h0
    rw [Dbl.value_le] at h
    have h0 : 0 ≤ a.code := h0
    unfold Dbl.Finite at hb ⊢
    omega
  square a := by
    have hz : (0 : ℚ) = (⟨0⟩ : Dbl).value := Dbl.value_zero.symm
    refine ⟨?_, ?_⟩
    · show (0 : ℚ) ≤ (Dbl.mul a a).value
      rw [hz, Dbl.value_le]
      show 0 ≤ (Dbl.mul a a).code
      unfold Dbl.mul
      have : Dbl.negative a a = false := by simp [Dbl.negative]
      rw [this]
      split
      · exact le_rfl
      · split
        · simp [Dbl.signed]
        · simp [Dbl.signed]
    · intro h
      by_contra hn
      have h : (Dbl.mul a a).Finite := h
      have hz : ¬ (a.code = 0 ∨ a.code = 0) := by
        unfold Dbl.Finite at hn
        have : 0 < Dbl.infC := by decide
        omega
      unfold Dbl.mul at h
      rw [if_neg hz, Dbl.isInf_true.2 hn, Bool.true_or, if_pos rfl] at h
      unfold Dbl.Finite at h
      rw [Dbl.natAbs_signed] at h
      omega
  grow a b ha hb := by
    have hz : (0 : ℚ) = (⟨0⟩ : Dbl).value := Dbl.value_zero.symm
    rw [hz, Dbl.value_le] at ha hb
    show (0 : ℚ) ≤ (Dbl.add a b).value
    rw [hz, Dbl.value_le]
    exact le_trans ha (Dbl.le_add hb)
  limits := ⟨by decide, rfl, rfl⟩

end CoMMA
