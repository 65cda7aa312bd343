import Verif.Spec.RoundedShape
import Verif.Lemmas.DoubleArith
/-! # Doubles do not overflow as long as exact results are not too large -/

namespace CoMMA

namespace Dbl

/-- the largest double -/
def largest : Dbl := ⟨infC - 1⟩

theorem roundInt_fits {n : Int} {d : Nat} (hd : 0 < d) {e : Int} (h : |(n : ℚ) / d * (2 : ℚ) ^ e| ≤ largest.value) : (roundInt n d e).Finite := by
  have hfin : largest.Finite := by decide
  rw [abs_le] at h
  have h1 := roundInt_le hd hfin h.2
  have h2 := le_roundInt hd (b := largest.neg) (finite_neg.2 hfin) (by rw [value_neg]; exact h.1)
  have e1 : largest.code = (infC : Int) - 1 := rfl
  have e2 : largest.neg.code = -((infC : Int) - 1) := rfl
  rw [e1] at h1
  rw [e2] at h2
  unfold Finite
  have : 0 < infC := by decide
  omega

theorem add_fits {a b : Dbl} (ha : a.Finite) (hb : b.Finite) (h : |a.value + b.value| ≤ largest.value) : (add a b).Finite := by
  obtain ⟨n, e, _, h1, h2⟩ := add_eq ha hb
  rw [h1]
  exact roundInt_fits (by omega) (by rw [h2]; exact h)

theorem reduce_fits : ∀ (k : Nat) (l : List Dbl), l.length ≤ k → ∀ s : Dbl, s.Finite → (∀ a ∈ l, a.Finite) →
    (1 + (2 : ℚ) ^ (-53 : Int)) ^ l.length * (|s.value| + (l.map (fun a => |a.value|)).sum) ≤ largest.value →
    (reduceFrom s l).Finite := by
  have hR := dbl_rounded
  have hu := hR.nonneg
  have hadd : ∀ a b : Dbl, (add a b).Finite → |(add a b).value| ≤ (1 + (2 : ℚ) ^ (-53 : Int)) * (|a.value| + |b.value|) := by
    intro a b h
    have h1 := hR.add a b h
    have h2 := abs_add_le ((add a b).value - (a.value + b.value)) (a.value + b.value)
    have h3 := abs_add_le a.value b.value
    rw [sub_add_cancel] at h2
    have h1 : |(add a b).value - (a.value + b.value)| ≤ (2 : ℚ) ^ (-53 : Int) * |a.value + b.value| := h1
    generalize (2 : ℚ) ^ (-53 : Int) = u at *
    have h4 := mul_le_mul_of_nonneg_left h3 hu
    linarith
  have hfold : ∀ (l : List Dbl) (s : Dbl), s.Finite → (∀ a ∈ l, a.Finite) →
      (1 + (2 : ℚ) ^ (-53 : Int)) ^ l.length * (|s.value| + (l.map (fun a => |a.value|)).sum) ≤ largest.value → (l.foldl add s).Finite := by
    intro l
    induction l with
    | nil => intro s hs _ _; exact hs
    | cons a l ih =>
      intro s hs hl h
      have g0 : (0 : ℚ) ≤ (l.map (fun a => |a.value|)).sum := List.sum_nonneg (by intro x hx; obtain ⟨y, _, rfl⟩ := List.mem_map.1 hx; positivity)
      rw [List.map_cons, List.sum_cons, List.length_cons, pow_succ] at h
      have hg1 := one_le_grow hu l.length
      have hf : (add s a).Finite := by
        refine add_fits hs (hl a (by simp)) ((abs_add_le _ _).trans (le_trans ?_ h))
        generalize (2 : ℚ) ^ (-53 : Int) = u at *
        have h5 : 1 ≤ (1 + u) ^ l.length * (1 + u) := one_le_mul_of_one_le_of_one_le hg1 (by linarith)
        have h6 := mul_le_mul_of_nonneg_right h5 (show 0 ≤ |s.value| + (|a.value| + (l.map (fun a => |a.value|)).sum) by positivity)
        linarith
      rw [List.foldl_cons]
      refine ih _ hf (fun b hb => hl b (by simp [hb])) (le_trans ?_ h)
      rw [mul_assoc]
      refine mul_le_mul_of_nonneg_left ?_ (by linarith)
      have := hadd s a hf
      have h6 : 1 * (l.map (fun a => |a.value|)).sum ≤ (1 + (2 : ℚ) ^ (-53 : Int)) * (l.map (fun a => |a.value|)).sum :=
        mul_le_mul_of_nonneg_right (by linarith) g0
      linarith
  intro k
  induction k with
  | zero =>
    intro l hl s hs hf h
    have : l = [] := List.eq_nil_of_length_eq_zero (by omega)
    subst this
    exact hs
  | succ k ih =>
    intro l hl s hs hf h
    match l, hl, hf, h with
    | [], _, hf, h => exact hs
    | [a], _, hf, h => exact hfold [a] s hs hf h
    | [a, b], _, hf, h => exact hfold [a, b] s hs hf h
    | [a, b, c], _, hf, h => exact hfold [a, b, c] s hs hf h
    | a :: b :: c :: d :: r, hl, hf, h =>
      rw [reduceFrom]
      have g0 : (0 : ℚ) ≤ (r.map (fun a => |a.value|)).sum := List.sum_nonneg (by intro x hx; obtain ⟨y, _, rfl⟩ := List.mem_map.1 hx; positivity)
      simp only [List.map_cons, List.sum_cons, List.length_cons] at h
      have hg1 := one_le_grow hu r.length
      have e4 : (1 + (2 : ℚ) ^ (-53 : Int)) ^ (r.length + 1 + 1 + 1 + 1) = (1 + (2 : ℚ) ^ (-53 : Int)) ^ r.length * (1 + (2 : ℚ) ^ (-53 : Int)) ^ 4 := by
        rw [← pow_add]
      rw [e4] at h
      have key : ∀ t : ℚ, t ≤ (1 + (2 : ℚ) ^ (-53 : Int)) ^ 4 * (|s.value| + (|a.value| + (|b.value| + (|c.value| + (|d.value| + (r.map (fun a => |a.value|)).sum))))) →
          t ≤ largest.value := by
        intro t ht
        refine ht.trans (le_trans ?_ h)
        rw [mul_assoc]
        exact le_mul_of_one_le_left (by positivity) hg1
      have p2 : ∀ {m n : Nat}, m ≤ n → (1 + (2 : ℚ) ^ (-53 : Int)) ^ m ≤ (1 + (2 : ℚ) ^ (-53 : Int)) ^ n :=
        fun h => pow_le_pow_right₀ (by linarith) h
      have q1 : (1 : ℚ) ≤ (1 + (2 : ℚ) ^ (-53 : Int)) ^ 4 := by simpa using p2 (show 0 ≤ 4 by omega)
      have q2 : (1 + (2 : ℚ) ^ (-53 : Int)) ≤ (1 + (2 : ℚ) ^ (-53 : Int)) ^ 4 := by simpa using p2 (show 1 ≤ 4 by omega)
      have q3 : (1 + (2 : ℚ) ^ (-53 : Int)) * (1 + (2 : ℚ) ^ (-53 : Int)) ≤ (1 + (2 : ℚ) ^ (-53 : Int)) ^ 4 := by
        have := p2 (show 2 ≤ 4 by omega); rw [pow_two] at this; exact this
      have q4 : (1 + (2 : ℚ) ^ (-53 : Int)) * ((1 + (2 : ℚ) ^ (-53 : Int)) * (1 + (2 : ℚ) ^ (-53 : Int))) ≤ (1 + (2 : ℚ) ^ (-53 : Int)) ^ 4 := by
        have := p2 (show 3 ≤ 4 by omega); rw [show (3 : Nat) = 1 + 2 by rfl, pow_add, pow_one, pow_two] at this; exact this
      have fa := hf a (by simp)
      have fb := hf b (by simp)
      have fc := hf c (by simp)
      have fd := hf d (by simp)
      have hT : 0 ≤ |s.value| + (|a.value| + (|b.value| + (|c.value| + (|d.value| + (r.map (fun a => |a.value|)).sum)))) := by positivity
      have up : ∀ {α t : ℚ}, 0 ≤ α → α ≤ (1 + (2 : ℚ) ^ (-53 : Int)) ^ 4 → t ≤ α * (|s.value| + (|a.value| + (|b.value| + (|c.value| + (|d.value| + (r.map (fun a => |a.value|)).sum))))) →
          t ≤ largest.value := fun _ h1 h2 => key _ (h2.trans (mul_le_mul_of_nonneg_right h1 hT))
      have a0 := abs_nonneg a.value
      have b0 := abs_nonneg b.value
      have c0 := abs_nonneg c.value
      have d0 := abs_nonneg d.value
      have s0 := abs_nonneg s.value
      have hab : (add a b).Finite := add_fits fa fb ((abs_add_le _ _).trans (up (α := 1) (by norm_num) q1 (by linarith)))
      have hcd : (add c d).Finite := add_fits fc fd ((abs_add_le _ _).trans (up (α := 1) (by norm_num) q1 (by linarith)))
      have vab := hadd _ _ hab
      have vcd := hadd _ _ hcd
      have h4 : (add (add a b) (add c d)).Finite := by
        refine add_fits hab hcd ((abs_add_le _ _).trans (up (α := 1 + (2 : ℚ) ^ (-53 : Int)) (by linarith) q2 ?_))
        generalize (2 : ℚ) ^ (-53 : Int) = u at *
        have := mul_nonneg (show 0 ≤ 1 + u by linarith) (show 0 ≤ |s.value| + (r.map (fun a => |a.value|)).sum by positivity)
        linarith
      have v4 : |(add (add a b) (add c d)).value| ≤ (1 + (2 : ℚ) ^ (-53 : Int)) * (1 + (2 : ℚ) ^ (-53 : Int)) * (|a.value| + |b.value| + (|c.value| + |d.value|)) := by
        refine (hadd _ _ h4).trans ?_
        rw [mul_assoc]
        exact mul_le_mul_of_nonneg_left (by linarith) (by linarith)
      have h5 : (add s (add (add a b) (add c d))).Finite := by
        refine add_fits hs h4 ((abs_add_le _ _).trans (up (α := (1 + (2 : ℚ) ^ (-53 : Int)) * (1 + (2 : ℚ) ^ (-53 : Int))) (by positivity) q3 ?_))
        have h1 : 1 ≤ (1 + (2 : ℚ) ^ (-53 : Int)) * (1 + (2 : ℚ) ^ (-53 : Int)) := one_le_mul_of_one_le_of_one_le (by linarith) (by linarith)
        generalize (1 + (2 : ℚ) ^ (-53 : Int)) * (1 + (2 : ℚ) ^ (-53 : Int)) = α at *
        have := mul_le_mul_of_nonneg_right h1 (show 0 ≤ |s.value| + (r.map (fun a => |a.value|)).sum by positivity)
        linarith
      refine ih r (by simp only [List.length_cons] at hl; omega) _ h5 (fun x hx => hf x (by simp [hx])) (le_trans ?_ h)
      rw [mul_assoc]
      refine mul_le_mul_of_nonneg_left (le_trans ?_ (mul_le_mul_of_nonneg_right q4 hT)) (by linarith)
      have v5 := hadd _ _ h5
      have h1 : 1 ≤ (1 + (2 : ℚ) ^ (-53 : Int)) * (1 + (2 : ℚ) ^ (-53 : Int)) := one_le_mul_of_one_le_of_one_le (by linarith) (by linarith)
      have h2 : 1 ≤ 1 + (2 : ℚ) ^ (-53 : Int) := by linarith
      generalize hα : (1 + (2 : ℚ) ^ (-53 : Int)) * (1 + (2 : ℚ) ^ (-53 : Int)) = α at *
      generalize (1 + (2 : ℚ) ^ (-53 : Int)) = β at *
      have w1 := mul_le_mul_of_nonneg_left v4 (show 0 ≤ β by linarith)
      have w2 := mul_le_mul_of_nonneg_left (mul_le_mul_of_nonneg_right h1 s0) (show 0 ≤ β by linarith)
      have h3 : 1 ≤ β * α := one_le_mul_of_one_le_of_one_le h2 h1
      have w3 := mul_le_mul_of_nonneg_right h3 g0
      linarith

end Dbl

/-- doubles do not overflow below the largest double -/
theorem dbl_range : NoOverflow Dbl Dbl.value Dbl.Finite ((2 : ℚ) ^ (-53 : Int)) Dbl.largest.value where
  add _ _ ha hb h := Dbl.add_fits ha hb h
  sub a b ha hb h := by
    show (Dbl.add a (Dbl.neg b)).Finite
    exact Dbl.add_fits ha (Dbl.finite_neg.2 hb) (by rw [Dbl.value_neg, ← sub_eq_add_neg]; exact h)
  mul a b ha hb h := by
    obtain ⟨n, e, h1, h2⟩ := Dbl.mul_eq ha hb
    show (Dbl.mul a b).Finite
    rw [h1]
    exact Dbl.roundInt_fits (by omega) (by rw [h2]; exact h)
  div a b ha hb h0 h := by
    obtain ⟨n, d, e, hd, h1, h2⟩ := Dbl.div_eq ha hb (fun hh => h0 (Dbl.value_eq_zero.2 hh))
    show (Dbl.div a b).Finite
    rw [h1]
    exact Dbl.roundInt_fits hd (by rw [h2]; exact h)
  reduce l hl h := Dbl.reduce_fits l.length l le_rfl ⟨0⟩ (by decide) hl (by rw [Dbl.value_zero, abs_zero, zero_add]; exact h)

/-- the largest double is almost `2 ^ 1024` -/
theorem dbl_largest : (2 : ℚ) ^ (1023 : Int) ≤ Dbl.largest.value := by
  have h : (⟨2046 * 2 ^ 52⟩ : Dbl).value ≤ Dbl.largest.value := by rw [Dbl.value_le]; decide
  refine le_trans (le_of_eq ?_) h
  unfold Dbl.value Dbl.valueN Dbl.mant Dbl.expo
  norm_num
  rw [show (4503599627370496 : ℚ) = 2 ^ 52 by norm_num, ← pow_add]

end CoMMA
