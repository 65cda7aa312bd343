import Verif.Lemmas.DoubleArith
import Verif.Lemmas.DoubleRange
import Verif.Lemmas.DoubleExact
/-! # Whole numbers as doubles -/

namespace CoMMA

namespace Dbl

theorem whole_exact {z : Int} (hz : |z| ≤ 2 ^ 53) : (roundInt z 1 0).Finite ∧ (roundInt z 1 0).value = z := by
  obtain ⟨b, h1, h2⟩ := representableInt (e := 0) (by norm_num) (by norm_num) hz
  have : roundInt z 1 0 = b := roundInt_exact (by omega) h1 (by rw [h2]; push_cast; ring)
  rw [this]
  exact ⟨h1, by rw [h2]; simp⟩

theorem eq_of_code {x y : Dbl} (h : x.code = y.code) : x = y := by
  cases x; cases y; simp at h; rw [h]

theorem round_same {n n' : Int} {d d' : Nat} (hd : 0 < d) (hd' : 0 < d') {e e' : Int}
    (h : (n : ℚ) / d * (2 : ℚ) ^ e = (n' : ℚ) / d' * (2 : ℚ) ^ e') : roundInt n d e = roundInt n' d' e' :=
  eq_of_code (le_antisymm (roundInt_mono hd hd' h.le) (roundInt_mono hd' hd h.ge))

theorem whole_add {x y : Int} (hx : |x| ≤ 2 ^ 53) (hy : |y| ≤ 2 ^ 53) :
    add (roundInt x 1 0) (roundInt y 1 0) = roundInt (x + y) 1 0 := by
  obtain ⟨n, e, _, h1, h2⟩ := add_eq (whole_exact hx).1 (whole_exact hy).1
  rw [h1]
  refine round_same (by omega) (by omega) ?_
  rw [h2, (whole_exact hx).2, (whole_exact hy).2]
  push_cast; ring

theorem whole_sub {x y : Int} (hx : |x| ≤ 2 ^ 53) (hy : |y| ≤ 2 ^ 53) :
    add (roundInt x 1 0) (neg (roundInt y 1 0)) = roundInt (x - y) 1 0 := by
  rw [neg_roundInt, whole_add hx (by rwa [abs_neg]), Int.sub_eq_add_neg]

theorem whole_mul {x y : Int} (hx : |x| ≤ 2 ^ 53) (hy : |y| ≤ 2 ^ 53) :
    mul (roundInt x 1 0) (roundInt y 1 0) = roundInt (x * y) 1 0 := by
  obtain ⟨n, e, h1, h2⟩ := mul_eq (whole_exact hx).1 (whole_exact hy).1
  rw [h1]
  refine round_same (by omega) (by omega) ?_
  rw [h2, (whole_exact hx).2, (whole_exact hy).2]
  push_cast; ring

theorem whole_div {x : Int} {y : Nat} (hx : |x| ≤ 2 ^ 53) (hy : y ≤ 2 ^ 53) (h0 : 0 < y) :
    div (roundInt x 1 0) (roundInt y 1 0) = roundInt x y 0 := by
  have hy' : |(y : Int)| ≤ 2 ^ 53 := by rw [abs_of_nonneg (by omega)]; exact_mod_cast hy
  obtain ⟨n, d, e, hd, h1, h2⟩ := div_eq (whole_exact hx).1 (whole_exact hy').1 (by
    intro h
    have := value_eq_zero.2 h
    rw [(whole_exact hy').2] at this
    have h3 : y = 0 := by exact_mod_cast this
    omega)
  rw [h1]
  refine round_same hd h0 ?_
  rw [h2, (whole_exact hx).2, (whole_exact hy').2]
  push_cast; ring

theorem abs_sum_le (l : List Int) : |l.sum| ≤ (l.map (fun z => |z|)).sum := by
  induction l with
  | nil => simp
  | cons a l ih =>
    rw [List.sum_cons, List.map_cons, List.sum_cons]
    exact (abs_add_le a l.sum).trans (by omega)

theorem whole_foldl : ∀ (l : List Int) (s : Int), |s| + (l.map (fun z => |z|)).sum ≤ 2 ^ 53 →
    (l.map (fun z => roundInt z 1 0)).foldl add (roundInt s 1 0) = roundInt (s + l.sum) 1 0 := by
  intro l
  induction l with
  | nil => intro s _; simp
  | cons a l ih =>
    intro s h
    rw [List.map_cons, List.sum_cons] at h
    have h1 := abs_add_le s a
    have h2 : 0 ≤ (l.map (fun z => |z|)).sum := (abs_nonneg _).trans (abs_sum_le l)
    have h3 := abs_nonneg s
    have h4 := abs_nonneg a
    rw [List.map_cons, List.foldl_cons, whole_add (by omega) (by omega), ih _ (by omega), List.sum_cons, Int.add_assoc]

theorem whole_reduce : ∀ (k : Nat) (l : List Int), l.length ≤ k → ∀ s : Int, |s| + (l.map (fun z => |z|)).sum ≤ 2 ^ 53 →
    reduceFrom (roundInt s 1 0) (l.map (fun z => roundInt z 1 0)) = roundInt (s + l.sum) 1 0 := by
  intro k
  induction k with
  | zero =>
    intro l hl s _
    obtain rfl := List.length_eq_zero_iff.1 (by omega : l.length = 0)
    simp [reduceFrom]
  | succ k ih =>
    intro l hl s h
    match l, hl, h with
    | a :: b :: c :: d :: r, hl, h =>
      simp only [List.map_cons, List.sum_cons, List.length_cons] at *
      have h0 := abs_nonneg s
      have h1 := abs_nonneg a
      have h2 := abs_nonneg b
      have h3 := abs_nonneg c
      have h4 := abs_nonneg d
      have h5 : 0 ≤ (r.map (fun z => |z|)).sum := (abs_nonneg _).trans (abs_sum_le r)
      have e1 := abs_add_le a b
      have e2 := abs_add_le c d
      have e3 := abs_add_le (a + b) (c + d)
      have e4 := abs_add_le s (a + b + (c + d))
      unfold reduceFrom
      rw [whole_add (by omega) (by omega), whole_add (by omega) (by omega), whole_add (by omega) (by omega),
        whole_add (by omega) (by omega), ih r (by omega) _ (by omega)]
      congr 1; ring
    | [], _, _ => simp [reduceFrom]
    | [a], _, h => simpa [reduceFrom] using whole_foldl [a] s (by simpa using h)
    | [a, b], _, h => simpa [reduceFrom] using whole_foldl [a, b] s (by simpa using h)
    | [a, b, c], _, h => simpa [reduceFrom] using whole_foldl [a, b, c] s (by simpa using h)

/-- fractions of small whole numbers keep their order when rounded -/
theorem round_frac_lt {p q : Int} {c d : Nat} (hc : 0 < c) (hd : 0 < d)
    (h1 : p.natAbs * d ≤ 2 ^ 51) (h2 : q.natAbs * c ≤ 2 ^ 51) (h3 : c * d ≤ 2 ^ 102) (h : (p : ℚ) / c < (q : ℚ) / d) :
    (roundInt p c 0).code < (roundInt q d 0).code := by
  have hc' : (0 : ℚ) < c := by exact_mod_cast hc
  have hd' : (0 : ℚ) < d := by exact_mod_cast hd
  have hz : (2 : ℚ) ^ (0 : Int) = 1 := zpow_zero _
  rcases (roundInt_mono hc hd (e := 0) (e' := 0) (by rw [hz, mul_one, mul_one]; exact h.le)).lt_or_eq with h4 | h4
  · exact h4
  exfalso
  have fits : ∀ {x : Int} {y z : Nat}, 0 < y → 0 < z → x.natAbs * z ≤ 2 ^ 51 → (roundInt x y 0).Finite := by
    intro x y z hy hz' hx
    refine roundInt_fits hy ?_
    rw [hz, mul_one, abs_div]
    have hy' : (1 : ℚ) ≤ |(y : ℚ)| := by rw [abs_of_nonneg (by positivity)]; exact_mod_cast hy
    have : |(x : ℚ)| ≤ 2 ^ 51 := by
      have : x.natAbs ≤ 2 ^ 51 := (Nat.le_mul_of_pos_right _ hz').trans hx
      rw [← Int.cast_abs, Int.abs_eq_natAbs]
      exact_mod_cast this
    refine (div_le_self (abs_nonneg _) hy').trans (this.trans ?_)
    refine le_trans ?_ dbl_largest
    rw [show (2 : ℚ) ^ 51 = (2 : ℚ) ^ (51 : Int) by norm_num]
    exact zpow_le_zpow_right₀ (by norm_num) (by norm_num)
  have f1 := roundInt_error_any hc (fits hc hd h1)
  have f2 := roundInt_error_any hd (fits hd hc h2)
  rw [hz, mul_one] at f1 f2
  rw [eq_of_code h4] at f1
  generalize (roundInt q d 0).value = r at f1 f2
  have key : (q : ℚ) / d - p / c ≤ (2 : ℚ) ^ (-53 : Int) * (|(p : ℚ) / c| + |(q : ℚ) / d|) + 2 * (2 : ℚ) ^ (-1075 : Int) := by
    have a1 := (abs_le.1 f1).2
    have a2 := (abs_le.1 f2).1
    have a3 := (abs_le.1 f1).1
    have a4 := (abs_le.1 f2).2
    rw [mul_add]
    generalize (2 : ℚ) ^ (-53 : Int) * |(p : ℚ) / c| = x at a1 a3 ⊢
    generalize (2 : ℚ) ^ (-53 : Int) * |(q : ℚ) / d| = y at a2 a4 ⊢
    generalize (2 : ℚ) ^ (-1075 : Int) = z at a1 a2 a3 a4 ⊢
    linarith
  have gap : (1 : ℚ) ≤ ((q : ℚ) / d - p / c) * (c * d) := by
    have e : ((q : ℚ) / d - p / c) * (c * d) = q * c - p * d := by field_simp
    rw [e]
    have : (p : ℚ) * d < q * c := by rwa [div_lt_div_iff₀ hc' hd'] at h
    have h5 : p * d < q * c := by exact_mod_cast this
    have h6 : 1 ≤ q * c - p * d := by omega
    exact_mod_cast h6
  have b1 : |(p : ℚ) / c| * (c * d) ≤ 2 ^ 51 := by
    rw [abs_div, abs_of_pos hc', show |(p : ℚ)| / c * (c * d) = |(p : ℚ)| * d by field_simp, ← Int.cast_abs, Int.abs_eq_natAbs]
    exact_mod_cast h1
  have b2 : |(q : ℚ) / d| * (c * d) ≤ 2 ^ 51 := by
    rw [abs_div, abs_of_pos hd', show |(q : ℚ)| / d * (c * d) = |(q : ℚ)| * c by field_simp, ← Int.cast_abs, Int.abs_eq_natAbs]
    exact_mod_cast h2
  have b3 : 2 * (2 : ℚ) ^ (-1075 : Int) * (c * d) ≤ 1 / 4 := by
    have h5 : ((c : ℚ) * d) ≤ (2 : ℚ) ^ 102 := by exact_mod_cast h3
    calc 2 * (2 : ℚ) ^ (-1075 : Int) * (c * d) ≤ 2 * (2 : ℚ) ^ (-1075 : Int) * (2 : ℚ) ^ 102 :=
          mul_le_mul_of_nonneg_left h5 (by positivity)
      _ ≤ 2 * (2 : ℚ) ^ (-105 : Int) * (2 : ℚ) ^ 102 := by
          refine mul_le_mul_of_nonneg_right (mul_le_mul_of_nonneg_left ?_ (by norm_num)) (by positivity)
          exact zpow_le_zpow_right₀ (by norm_num) (by norm_num)
      _ ≤ 1 / 4 := by norm_num
  have hcd : (0 : ℚ) < c * d := by positivity
  have k2 := mul_le_mul_of_nonneg_right key hcd.le
  have k3 := gap.trans k2
  rw [add_mul, mul_assoc ((2 : ℚ) ^ (-53 : Int)), add_mul] at k3
  have k4 : (2 : ℚ) ^ (-53 : Int) * (|(p : ℚ) / c| * (c * d) + |(q : ℚ) / d| * (c * d)) ≤ (2 : ℚ) ^ (-53 : Int) * (2 ^ 51 + 2 ^ 51) :=
    mul_le_mul_of_nonneg_left (by linarith) (by positivity)
  have k5 : (2 : ℚ) ^ (-53 : Int) * (2 ^ 51 + 2 ^ 51) = 1 / 2 := by norm_num
  rw [k5] at k4
  have k6 := k3.trans (add_le_add k4 b3)
  norm_num at k6

end Dbl

end CoMMA
