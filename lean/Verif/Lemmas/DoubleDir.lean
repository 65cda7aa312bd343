import Verif.Lemmas.DoubleSqrt
import Verif.Lemmas.DoubleRange
import Verif.Spec.LineGrowth
import Mathlib.Analysis.Real.Sqrt
/-! # Unit vectors and their scalar products in double precision -/

namespace CoMMA
namespace Dbl

/-- the value of a double as a real number -/
noncomputable def real (a : Dbl) : ℝ := (a.value : ℝ)

/-- the smallest positive error of products and quotients -/
noncomputable def tiny : ℝ := (2 : ℝ) ^ (-1075 : Int)

theorem tiny_nonneg : 0 ≤ tiny := by unfold tiny; positivity

theorem tiny_le {k : Int} (hk : k ≤ 1022) : tiny ≤ 1 / 2 ^ 53 * (2 : ℝ) ^ (-k) := by
  have h : (1 / 2 ^ 53 : ℝ) = (2 : ℝ) ^ (-53 : Int) := by norm_num
  unfold tiny
  rw [h, ← zpow_add₀ (by norm_num)]
  exact zpow_le_zpow_right₀ (by norm_num) (by omega)

theorem largest_real {x : ℚ} (h : |(x : ℝ)| ≤ (2 : ℝ) ^ (1000 : Int)) : |x| ≤ largest.value := by
  refine le_trans ?_ dbl_largest
  have h1 : (2 : ℝ) ^ (1000 : Int) ≤ (2 : ℝ) ^ (1023 : Int) := zpow_le_zpow_right₀ (by norm_num) (by norm_num)
  have h2 := h.trans h1
  rw [← Rat.cast_le (K := ℝ)]
  push_cast
  exact h2

theorem half_real : (((2 : ℚ) ^ (-53 : Int) : ℚ) : ℝ) = 1 / 2 ^ 53 := by norm_num

theorem real_add {a b : Dbl} (ha : a.Finite) (hb : b.Finite) (h : |a.real + b.real| ≤ (2 : ℝ) ^ (1000 : Int)) :
    (Num.add a b).Finite ∧ |(Num.add a b).real - (a.real + b.real)| ≤ 1 / 2 ^ 53 * |a.real + b.real| := by
  have h1 := dbl_range.add a b ha hb (largest_real (by push_cast; exact h))
  refine ⟨h1, ?_⟩
  have h2 := dbl_arith.add a b h1
  rw [← Rat.cast_le (K := ℝ)] at h2
  rw [← half_real]
  unfold real
  push_cast at h2 ⊢
  exact h2

theorem real_sub {a b : Dbl} (ha : a.Finite) (hb : b.Finite) (h : |a.real - b.real| ≤ (2 : ℝ) ^ (1000 : Int)) :
    (Num.sub a b).Finite ∧ |(Num.sub a b).real - (a.real - b.real)| ≤ 1 / 2 ^ 53 * |a.real - b.real| := by
  have h1 := dbl_range.sub a b ha hb (largest_real (by push_cast; exact h))
  refine ⟨h1, ?_⟩
  have h2 := (dbl_arith.sub a b h1).2.2
  rw [← Rat.cast_le (K := ℝ)] at h2
  rw [← half_real]
  unfold real
  push_cast at h2 ⊢
  exact h2

theorem real_mul {a b : Dbl} (ha : a.Finite) (hb : b.Finite) (h : |a.real * b.real| ≤ (2 : ℝ) ^ (1000 : Int)) :
    (Num.mul a b).Finite ∧ |(Num.mul a b).real - a.real * b.real| ≤ 1 / 2 ^ 53 * |a.real * b.real| + tiny := by
  have h1 := dbl_range.mul a b ha hb (largest_real (by push_cast; exact h))
  refine ⟨h1, ?_⟩
  have h2 := (dbl_arith.mul a b (Or.inr hb) ha h1).2
  rw [← Rat.cast_le (K := ℝ)] at h2
  rw [← half_real]
  unfold real tiny
  push_cast at h2 ⊢
  exact h2

theorem real_div {a b : Dbl} (ha : a.Finite) (hb : b.Finite) (h0 : b.real ≠ 0) (h : |a.real / b.real| ≤ (2 : ℝ) ^ (1000 : Int)) :
    (Num.div a b).Finite ∧ |(Num.div a b).real - a.real / b.real| ≤ 1 / 2 ^ 53 * |a.real / b.real| + tiny := by
  have h0' : b.value ≠ 0 := fun hh => h0 (by unfold real; rw [hh]; simp)
  have h1 := dbl_range.div a b ha hb h0' (largest_real (by push_cast; exact h))
  refine ⟨h1, ?_⟩
  have h2 := (dbl_arith.div a b hb h0' h1).2
  rw [← Rat.cast_le (K := ℝ)] at h2
  rw [← half_real]
  unfold real tiny
  push_cast at h2 ⊢
  exact h2

theorem real_sqrt {a : Dbl} (ha : a.Finite) (hpos : 0 < a.real) :
    (Num.sqrt a).Finite ∧ |(Num.sqrt a).real - √a.real| ≤ 1 / 2 ^ 52 * √a.real := by
  have hc : 0 < a.code := by
    have : (⟨0⟩ : Dbl).value < a.value := by
      rw [value_zero, ← Rat.cast_lt (K := ℝ), Rat.cast_zero]
      exact hpos
    exact value_lt.1 this
  obtain ⟨h1, _, h3⟩ := sqrt_spec ha hc
  refine ⟨h1, ?_⟩
  have : ((2 : ℝ) ^ (-52 : Int)) = 1 / 2 ^ 52 := by norm_num
  rw [this] at h3
  exact h3

/-- sums of lists -/
theorem sum_near {δ B : ℝ} (hδ : 0 ≤ δ) (hB : B + B ≤ (2 : ℝ) ^ (1000 : Int)) : ∀ {l : List Dbl} {L : List ℝ},
    List.Forall₂ (fun x X => x.Finite ∧ |x.real - X| ≤ δ) l L → ∀ {s : Dbl} {T ε : ℝ}, s.Finite → |s.real - T| ≤ ε →
    |T| + (L.map (fun x => |x|)).sum ≤ B → ε + l.length * (δ + 1 / 2 ^ 52 * B) ≤ B →
    (l.foldl Num.add s).Finite ∧ |(l.foldl Num.add s).real - (T + L.sum)| ≤ ε + l.length * (δ + 1 / 2 ^ 52 * B) := by
  intro l L h
  induction h with
  | nil =>
    intro s T ε hs he _ _
    refine ⟨hs, ?_⟩
    simpa using he
  | @cons x X l L hx hl ih =>
    intro s T ε hs he hT hsm
    simp only [List.map_cons, List.sum_cons, List.length_cons, Nat.cast_add, Nat.cast_one] at hT hsm
    have hp : 0 ≤ (L.map (fun x => |x|)).sum := List.sum_nonneg (by intro y hy; obtain ⟨z, _, rfl⟩ := List.mem_map.1 hy; positivity)
    have hB0 : 0 ≤ B := by have := abs_nonneg T; have := abs_nonneg X; linarith
    have hlen : 0 ≤ (l.length : ℝ) * (δ + 1 / 2 ^ 52 * B) := by positivity
    have hstep : 0 ≤ 1 / 2 ^ 52 * B := by positivity
    have hTX := abs_add_le T X
    have e0 : |s.real + x.real - (T + X)| ≤ ε + δ := by
      have := abs_add_le (s.real - T) (x.real - X)
      rw [show s.real - T + (x.real - X) = s.real + x.real - (T + X) by ring] at this
      linarith [hx.2]
    have e1 : |s.real + x.real| ≤ B + B := by
      have := abs_add_le (s.real + x.real - (T + X)) (T + X)
      rw [sub_add_cancel] at this
      linarith
    obtain ⟨f1, f2⟩ := real_add hs hx.1 (e1.trans hB)
    have e2 : |(Num.add s x).real - (T + X)| ≤ ε + (δ + 1 / 2 ^ 52 * B) := by
      have := abs_sub_le (Num.add s x).real (s.real + x.real) (T + X)
      have h3 : 1 / 2 ^ 53 * |s.real + x.real| ≤ 1 / 2 ^ 53 * (B + B) := mul_le_mul_of_nonneg_left e1 (by norm_num)
      have h4 : 1 / 2 ^ 53 * (B + B) = 1 / 2 ^ 52 * B := by ring
      linarith
    have := ih f1 e2 (by linarith) (by linarith)
    rw [List.foldl_cons]
    refine ⟨this.1, ?_⟩
    have h5 := this.2
    simp only [List.sum_cons, List.length_cons, Nat.cast_add, Nat.cast_one]
    rw [show T + (X + L.sum) = T + X + L.sum by ring]
    linarith

/-- squares of coordinates -/
theorem square_near {x : Dbl} {v S : ℝ} (hx : x.Finite) (hv : |x.real - v| ≤ 1 / 2 ^ 53 * |v|) (hS : v * v ≤ S)
    (h1 : (2 : ℝ) ^ (-900 : Int) ≤ S) (h2 : S ≤ (2 : ℝ) ^ (900 : Int)) :
    (Num.mul x x).Finite ∧ |(Num.mul x x).real - v * v| ≤ 5 * (1 / 2 ^ 53) * S := by
  have hvv : |v| * |v| = v * v := abs_mul_abs_self v
  have e1 : |x.real * x.real - v * v| ≤ 1 / 2 ^ 53 * (2 + 1 / 2 ^ 53) * S := by
    rw [show x.real * x.real - v * v = (x.real - v) * ((x.real - v) + 2 * v) by ring, abs_mul]
    have g1 : |x.real - v + 2 * v| ≤ (2 + 1 / 2 ^ 53) * |v| := by
      have := abs_add_le (x.real - v) (2 * v)
      rw [abs_mul, abs_of_pos (show (0 : ℝ) < 2 by norm_num)] at this
      linarith
    refine (mul_le_mul hv g1 (abs_nonneg _) (by positivity)).trans ?_
    rw [show 1 / 2 ^ 53 * |v| * ((2 + 1 / 2 ^ 53) * |v|) = 1 / 2 ^ 53 * (2 + 1 / 2 ^ 53) * (|v| * |v|) by ring, hvv]
    exact mul_le_mul_of_nonneg_left hS (by norm_num)
  have hS0 : 0 < S := lt_of_lt_of_le (by positivity) h1
  have e2 : |x.real * x.real| ≤ 2 * S := by
    have := abs_add_le (x.real * x.real - v * v) (v * v)
    rw [sub_add_cancel, abs_of_nonneg (mul_self_nonneg v)] at this
    have g : 1 / 2 ^ 53 * (2 + 1 / 2 ^ 53) * S ≤ 1 * S := mul_le_mul_of_nonneg_right (by norm_num) hS0.le
    linarith
  have hbig : (2 : ℝ) * S ≤ (2 : ℝ) ^ (1000 : Int) := by
    have : (2 : ℝ) * (2 : ℝ) ^ (900 : Int) = (2 : ℝ) ^ (901 : Int) := by
      rw [show (901 : Int) = 1 + 900 by norm_num, zpow_add₀ (by norm_num), zpow_one]
    have h3 : (2 : ℝ) ^ (901 : Int) ≤ (2 : ℝ) ^ (1000 : Int) := zpow_le_zpow_right₀ (by norm_num) (by norm_num)
    exact (mul_le_mul_of_nonneg_left h2 (by norm_num)).trans (this.le.trans h3)
  obtain ⟨f1, f2⟩ := real_mul hx hx (e2.trans hbig)
  refine ⟨f1, ?_⟩
  have ht : tiny ≤ 1 / 2 ^ 53 * S := (tiny_le (k := 900) (by norm_num)).trans (mul_le_mul_of_nonneg_left h1 (by norm_num))
  have g3 := abs_sub_le (Num.mul x x).real (x.real * x.real) (v * v)
  have g4 : 1 / 2 ^ 53 * |x.real * x.real| ≤ 1 / 2 ^ 53 * ((1 + 1 / 4) * S) := by
    refine mul_le_mul_of_nonneg_left ?_ (by norm_num)
    have := abs_add_le (x.real * x.real - v * v) (v * v)
    rw [sub_add_cancel, abs_of_nonneg (mul_self_nonneg v)] at this
    have g : 1 / 2 ^ 53 * (2 + 1 / 2 ^ 53) * S ≤ 1 / 4 * S := mul_le_mul_of_nonneg_right (by norm_num) hS0.le
    linarith
  nlinarith

/-- the factor that makes a vector a unit vector -/
theorem inverse_near {s : Dbl} {S : ℝ} (hs : s.Finite) (h : |s.real - S| ≤ 1 / 2 ^ 45 * S)
    (h1 : (2 : ℝ) ^ (-900 : Int) ≤ S) (h2 : S ≤ (2 : ℝ) ^ (900 : Int)) :
    (Num.div (Num.ofNat 1) (Num.sqrt s)).Finite ∧
      |(Num.div (Num.ofNat 1) (Num.sqrt s)).real - 1 / √S| ≤ 1 / 2 ^ 43 * (1 / √S) := by
  have hS0 : 0 < S := lt_of_lt_of_le (by positivity) h1
  have hsp : 0 < s.real := by
    have := (abs_le.1 h).1
    have g : 1 / 2 ^ 45 * S ≤ 1 / 2 * S := mul_le_mul_of_nonneg_right (by norm_num) hS0.le
    linarith
  have hN0 : 0 < √S := Real.sqrt_pos.2 hS0
  have hr0 : 0 < √s.real := Real.sqrt_pos.2 hsp
  have hNN := Real.mul_self_sqrt hS0.le
  have hrr := Real.mul_self_sqrt hsp.le
  have e1 : |√s.real - √S| ≤ 1 / 2 ^ 45 * √S := by
    have g : |√s.real - √S| * (√s.real + √S) ≤ 1 / 2 ^ 45 * (√S * √S) := by
      rw [hNN]
      refine le_trans (le_of_eq ?_) h
      rw [← abs_of_pos (show 0 < √s.real + √S by linarith), ← abs_mul, show (√s.real - √S) * (√s.real + √S) = √s.real * √s.real - √S * √S by ring,
        hrr, hNN]
    have g2 : |√s.real - √S| * √S ≤ |√s.real - √S| * (√s.real + √S) := mul_le_mul_of_nonneg_left (by linarith) (abs_nonneg _)
    have g3 : |√s.real - √S| * √S ≤ 1 / 2 ^ 45 * √S * √S := by linarith
    exact le_of_mul_le_mul_right g3 hN0
  obtain ⟨f1, f2⟩ := real_sqrt hs hsp
  generalize Num.sqrt s = q at f1 f2 ⊢
  generalize √s.real = r at *
  have hN2 : √S ≤ (2 : ℝ) ^ (450 : Int) := by
    have : S ≤ ((2 : ℝ) ^ (450 : Int)) ^ 2 := by
      rw [← zpow_natCast, ← zpow_mul]
      exact h2
    exact Real.sqrt_le_iff.2 ⟨by positivity, this⟩
  have hN1 : (2 : ℝ) ^ (-450 : Int) ≤ √S := by
    refine Real.le_sqrt_of_sq_le ?_
    rw [← zpow_natCast, ← zpow_mul]
    exact h1
  generalize √S = N at *
  have e2 : |q.real - N| ≤ 1 / 2 ^ 44 * N := by
    have g1 := abs_sub_le q.real r N
    have g2 := (abs_le.1 e1).2
    have g3 : 1 / 2 ^ 52 * r ≤ 1 / 2 ^ 52 * (2 * N) := by
      refine mul_le_mul_of_nonneg_left ?_ (by norm_num)
      have : 1 / 2 ^ 45 * N ≤ 1 * N := mul_le_mul_of_nonneg_right (by norm_num) hN0.le
      linarith
    have : 0 ≤ N := hN0.le
    nlinarith
  have hq0 : 0 < q.real := by
    have := (abs_le.1 e2).1
    have g : 1 / 2 ^ 44 * N ≤ 1 / 2 * N := mul_le_mul_of_nonneg_right (by norm_num) hN0.le
    linarith
  have hn : N * (1 / N) = 1 := by field_simp
  have hq : q.real * (1 / q.real) = 1 := by field_simp
  have hone : (Num.ofNat 1 : Dbl).Finite ∧ (Num.ofNat 1 : Dbl).real = 1 := by
    have := ofNat_exact (n := 1) (by norm_num)
    refine ⟨this.1, ?_⟩
    unfold real
    show ((roundInt ((1 : Nat) : Int) 1 0).value : ℝ) = 1
    rw [this.2]
    norm_num
  have hninv : 0 < 1 / N := by positivity
  have hqinv : 0 < 1 / q.real := by positivity
  have e3 : 1 / q.real ≤ (1 + 1 / 2 ^ 43) * (1 / N) := by
    rw [mul_one_div, div_le_div_iff₀ hq0 hN0, one_mul]
    have := (abs_le.1 e2).1
    nlinarith
  have e4 : |1 / q.real - 1 / N| ≤ 1 / 2 ^ 44 * (1 / q.real) := by
    have : 1 / q.real - 1 / N = -((q.real - N) * ((1 / q.real) * (1 / N))) := by field_simp; ring
    rw [this, abs_neg, abs_mul, abs_of_pos (show 0 < 1 / q.real * (1 / N) by positivity)]
    calc |q.real - N| * (1 / q.real * (1 / N)) ≤ 1 / 2 ^ 44 * N * (1 / q.real * (1 / N)) := mul_le_mul_of_nonneg_right e2 (by positivity)
      _ = 1 / 2 ^ 44 * (1 / q.real) * (N * (1 / N)) := by ring
      _ = _ := by rw [hn, mul_one]
  have hninv2 : 1 / N ≤ (2 : ℝ) ^ (450 : Int) := by
    rw [zpow_neg] at hN1
    rw [one_div]
    exact inv_le_of_inv_le₀ (by positivity) hN1
  have hninv1 : (2 : ℝ) ^ (-450 : Int) ≤ 1 / N := by
    rw [one_div, zpow_neg]
    exact inv_anti₀ hN0 hN2
  have hbig : |(Num.ofNat 1 : Dbl).real / q.real| ≤ (2 : ℝ) ^ (1000 : Int) := by
    rw [hone.2, abs_of_pos hqinv]
    have : (1 + 1 / 2 ^ 43) * (1 / N) ≤ 2 * (1 / N) := mul_le_mul_of_nonneg_right (by norm_num) hninv.le
    have g : (2 : ℝ) * (2 : ℝ) ^ (450 : Int) = (2 : ℝ) ^ (451 : Int) := by
      rw [show (451 : Int) = 1 + 450 by norm_num, zpow_add₀ (by norm_num), zpow_one]
    have h3 : (2 : ℝ) ^ (451 : Int) ≤ (2 : ℝ) ^ (1000 : Int) := zpow_le_zpow_right₀ (by norm_num) (by norm_num)
    exact e3.trans (this.trans ((mul_le_mul_of_nonneg_left hninv2 (by norm_num)).trans (g.le.trans h3)))
  obtain ⟨d1, d2⟩ := real_div hone.1 f1 hq0.ne' hbig
  refine ⟨d1, ?_⟩
  rw [hone.2, abs_of_pos hqinv] at d2
  have ht : tiny ≤ 1 / 2 ^ 53 * (1 / N) := (tiny_le (k := 450) (by norm_num)).trans (mul_le_mul_of_nonneg_left hninv1 (by norm_num))
  have g1 := abs_sub_le (Num.div (Num.ofNat 1) q).real (1 / q.real) (1 / N)
  generalize 1 / q.real = a at *
  generalize 1 / N = n at *
  linarith

/-- one coordinate of the unit vector -/
theorem unit_near {x i : Dbl} {v n : ℝ} (hx : x.Finite) (hi : i.Finite) (hv : |x.real - v| ≤ 1 / 2 ^ 53 * |v|)
    (hn : |i.real - n| ≤ 1 / 2 ^ 43 * n) (h0 : 0 ≤ n) (h1 : |v| * n ≤ 1) :
    (Num.mul x i).Finite ∧ |(Num.mul x i).real - v * n| ≤ 1 / 2 ^ 42 := by
  have e1 : |x.real * i.real - v * n| ≤ 1 / 2 ^ 42 - 1 / 2 ^ 50 := by
    rw [show x.real * i.real - v * n = v * (i.real - n) + (x.real - v) * n + (x.real - v) * (i.real - n) by ring]
    have g1 := abs_add_le (v * (i.real - n) + (x.real - v) * n) ((x.real - v) * (i.real - n))
    have g2 := abs_add_le (v * (i.real - n)) ((x.real - v) * n)
    have k1 : |v * (i.real - n)| ≤ 1 / 2 ^ 43 * (|v| * n) := by
      rw [abs_mul]
      calc |v| * |i.real - n| ≤ |v| * (1 / 2 ^ 43 * n) := mul_le_mul_of_nonneg_left hn (abs_nonneg _)
        _ = _ := by ring
    have k2 : |(x.real - v) * n| ≤ 1 / 2 ^ 53 * (|v| * n) := by
      rw [abs_mul, abs_of_nonneg h0]
      calc |x.real - v| * n ≤ (1 / 2 ^ 53 * |v|) * n := mul_le_mul_of_nonneg_right hv h0
        _ = _ := by ring
    have k3 : |(x.real - v) * (i.real - n)| ≤ 1 / 2 ^ 96 * (|v| * n) := by
      rw [abs_mul]
      calc |x.real - v| * |i.real - n| ≤ (1 / 2 ^ 53 * |v|) * (1 / 2 ^ 43 * n) := mul_le_mul hv hn (abs_nonneg _) (by positivity)
        _ = _ := by ring
    generalize |v| * n = t at *
    linarith
  have e2 : |v * n| ≤ 1 := by rw [abs_mul, abs_of_nonneg h0]; exact h1
  have e3 : |x.real * i.real| ≤ 2 := by
    have := abs_add_le (x.real * i.real - v * n) (v * n)
    rw [sub_add_cancel] at this
    linarith
  have h2 : (2 : ℝ) ≤ (2 : ℝ) ^ (1000 : Int) := by
    have : (2 : ℝ) ^ (1 : Int) ≤ (2 : ℝ) ^ (1000 : Int) := zpow_le_zpow_right₀ (by norm_num) (by norm_num)
    rwa [zpow_one] at this
  obtain ⟨f1, f2⟩ := real_mul hx hi (e3.trans h2)
  refine ⟨f1, ?_⟩
  have ht := tiny_le (k := 0) (by norm_num)
  rw [neg_zero, zpow_zero] at ht
  have g := abs_sub_le (Num.mul x i).real (x.real * i.real) (v * n)
  linarith

/-- products of coordinates of unit vectors -/
theorem term_near {x y : Dbl} {p q : ℝ} (hx : x.Finite) (hy : y.Finite) (h1 : |x.real - p| ≤ 1 / 2 ^ 42) (h2 : |y.real - q| ≤ 1 / 2 ^ 42)
    (hp : |p| ≤ 1) (hq : |q| ≤ 1) : (Num.mul x y).Finite ∧ |(Num.mul x y).real - p * q| ≤ 1 / 2 ^ 40 := by
  have e1 : |x.real * y.real - p * q| ≤ 1 / 2 ^ 41 + 1 / 2 ^ 84 := by
    rw [show x.real * y.real - p * q = p * (y.real - q) + (x.real - p) * q + (x.real - p) * (y.real - q) by ring]
    have g1 := abs_add_le (p * (y.real - q) + (x.real - p) * q) ((x.real - p) * (y.real - q))
    have g2 := abs_add_le (p * (y.real - q)) ((x.real - p) * q)
    rw [abs_mul, abs_mul] at g2
    have k1 : |p| * |y.real - q| ≤ 1 * (1 / 2 ^ 42) := mul_le_mul hp h2 (abs_nonneg _) (by norm_num)
    have k2 : |x.real - p| * |q| ≤ 1 / 2 ^ 42 * 1 := mul_le_mul h1 hq (abs_nonneg _) (by norm_num)
    have k3 : |(x.real - p) * (y.real - q)| ≤ 1 / 2 ^ 42 * (1 / 2 ^ 42) := by
      rw [abs_mul]
      exact mul_le_mul h1 h2 (abs_nonneg _) (by norm_num)
    linarith
  have e2 : |p * q| ≤ 1 := by
    rw [abs_mul]
    exact mul_le_one₀ hp (abs_nonneg _) hq
  have e3 : |x.real * y.real| ≤ 2 := by
    have := abs_add_le (x.real * y.real - p * q) (p * q)
    rw [sub_add_cancel] at this
    linarith
  have h2 : (2 : ℝ) ≤ (2 : ℝ) ^ (1000 : Int) := by
    have : (2 : ℝ) ^ (1 : Int) ≤ (2 : ℝ) ^ (1000 : Int) := zpow_le_zpow_right₀ (by norm_num) (by norm_num)
    rwa [zpow_one] at this
  obtain ⟨f1, f2⟩ := real_mul hx hy (e3.trans h2)
  refine ⟨f1, ?_⟩
  have ht := tiny_le (k := 0) (by norm_num)
  rw [neg_zero, zpow_zero] at ht
  have g := abs_sub_le (Num.mul x y).real (x.real * y.real) (p * q)
  linarith

end Dbl
end CoMMA
