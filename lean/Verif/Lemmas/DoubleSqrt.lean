import Verif.Lemmas.DoubleRange
import Mathlib.Analysis.Real.Sqrt
/-! # The square root of a double is the nearest double -/

namespace CoMMA

namespace Dbl

theorem isqrt_spec {n : Nat} : ∀ (k r : Nat), r * r ≤ n → n < (r + 2 ^ k) * (r + 2 ^ k) →
    isqrt n k r * isqrt n k r ≤ n ∧ n < (isqrt n k r + 1) * (isqrt n k r + 1) := by
  intro k
  induction k with
  | zero => intro r h1 h2; exact ⟨h1, by simpa [isqrt] using h2⟩
  | succ k ih =>
    intro r h1 h2
    unfold isqrt
    split
    · next h => exact ih _ h (by rw [add_assoc, ← two_mul, ← pow_succ']; exact h2)
    · next h => exact ih _ h1 (by omega)

/-- doubles that are not small are multiples of a power of two -/
theorem valueN_multiple {c : Nat} {k : Int} (h : (2 : ℚ) ^ (k + 53) ≤ valueN c) : ∃ m : Nat, valueN c = m * (2 : ℚ) ^ k := by
  obtain ⟨_, _, h1, _⟩ := codeOf_mant c
  have h2 : k ≤ expo c := by
    by_contra hk
    have h3 : (2 : ℚ) ^ expo c ≤ (2 : ℚ) ^ k := zpow_le_zpow_right₀ (by norm_num) (by omega)
    have h4 : (mant c : ℚ) < 2 ^ 53 := by exact_mod_cast h1
    have h5 : valueN c < (2 : ℚ) ^ (k + 53) := by
      unfold valueN
      rw [zpow_add₀ (by norm_num), mul_comm]
      have hp : (0 : ℚ) < (2 : ℚ) ^ expo c := by positivity
      calc (2 : ℚ) ^ expo c * (mant c : ℚ) < (2 : ℚ) ^ expo c * 2 ^ 53 := mul_lt_mul_of_pos_left h4 hp
        _ ≤ (2 : ℚ) ^ k * 2 ^ 53 := mul_le_mul_of_nonneg_right h3 (by norm_num)
    linarith
  refine ⟨mant c * 2 ^ (expo c - k).toNat, ?_⟩
  unfold valueN
  push_cast
  rw [mul_assoc, ← zpow_natCast, ← zpow_add₀ (by norm_num)]
  congr 2
  omega

theorem value_multiple {c : Dbl} {k : Int} (h : (2 : ℚ) ^ (k + 53) ≤ c.value) : ∃ m : Nat, c.value = m * (2 : ℚ) ^ k := by
  have hp : (0 : ℚ) < (2 : ℚ) ^ (k + 53) := by positivity
  unfold value at h ⊢
  split at h
  · have := valueN_nonneg c.code.natAbs
    linarith
  · next hc => rw [if_neg hc]; exact valueN_multiple h

/-- `x` lies between `2 * r` and `2 * (r + 1)` and `y` is the double nearest to `2 * r + 1` units: then no double is nearer to `x` -/
theorem nearest_sticky {r : Nat} (hr : 2 ^ 56 - 1 ≤ r) {k : Int} {x : ℝ} (hx1 : 2 * (r : ℝ) * (2 : ℝ) ^ k < x)
    (hx2 : x < 2 * ((r : ℝ) + 1) * (2 : ℝ) ^ k) {y : Dbl}
    (hy : ∀ c : Dbl, |y.value - ((2 * r + 1 : Nat) : ℚ) * (2 : ℚ) ^ k| ≤ |c.value - ((2 * r + 1 : Nat) : ℚ) * (2 : ℚ) ^ k|)
    (he : |y.value - ((2 * r + 1 : Nat) : ℚ) * (2 : ℚ) ^ k| ≤ (2 : ℚ) ^ (-53 : Int) * (((2 * r + 1 : Nat) : ℚ) * (2 : ℚ) ^ k)) (c : Dbl) :
    |(y.value : ℝ) - x| ≤ |(c.value : ℝ) - x| := by
  by_contra hc
  rw [not_le] at hc
  have hw : (0 : ℚ) < (2 : ℚ) ^ k := by positivity
  have hwR : (0 : ℝ) < (2 : ℝ) ^ k := by positivity
  have ewR : ((((2 : ℚ) ^ k : ℚ)) : ℝ) = (2 : ℝ) ^ k := by push_cast; rfl
  have h0 := hy c
  push_cast at h0 he
  have hrq : (2 : ℚ) ^ 55 ≤ (r : ℚ) - 2 := by
    have h1 : 2 ^ 55 + 2 ≤ r := by omega
    have h2 : ((2 ^ 55 + 2 : Nat) : ℚ) ≤ (r : ℚ) := Nat.cast_le.2 h1
    push_cast at h2
    linarith
  -- both are multiples of four units
  have mult : ∀ z : Dbl, ((r : ℚ) - 2) * (2 : ℚ) ^ k ≤ z.value → ∃ m : Nat, z.value = m * 4 * (2 : ℚ) ^ k := by
    intro z hz
    obtain ⟨m, hm⟩ := value_multiple (c := z) (k := k + 2) (by
      refine le_trans ?_ hz
      rw [show k + 2 + 53 = 55 + k by ring, zpow_add₀ (by norm_num)]
      exact mul_le_mul_of_nonneg_right hrq hw.le)
    refine ⟨m, ?_⟩
    rw [hm, zpow_add₀ (by norm_num), show (2 : ℚ) ^ (2 : Int) = 4 by norm_num]
    ring
  have hu : (2 : ℚ) ^ (-53 : Int) * ((2 * (r : ℚ) + 1) * (2 : ℚ) ^ k) ≤ 1 / 2 * ((2 * (r : ℚ) + 1) * (2 : ℚ) ^ k) := by
    refine mul_le_mul_of_nonneg_right (by norm_num) (by positivity)
  have he1 := abs_le.1 (he.trans hu)
  have h0s := sq_le_sq.2 h0
  have hcs := sq_lt_sq.2 hc
  have hyb : ((r : ℚ) - 2) * (2 : ℚ) ^ k ≤ y.value := by nlinarith
  have ek : ∀ z : ℚ, ∀ m : Nat, z = m * 4 * (2 : ℚ) ^ k → (z : ℝ) = m * 4 * (2 : ℝ) ^ k := by
    rintro z m rfl
    push_cast
    rfl
  obtain ⟨m2, hm2⟩ := mult y hyb
  rcases lt_trichotomy c.value y.value with hlt | heq | hgt
  · have hltR : (c.value : ℝ) < (y.value : ℝ) := by exact_mod_cast hlt
    have a1 : c.value + y.value ≤ 2 * ((2 * (r : ℚ) + 1) * (2 : ℚ) ^ k) := by nlinarith
    have a2 : 2 * x < (c.value : ℝ) + (y.value : ℝ) := by nlinarith
    have a3 : ((r : ℚ) - 2) * (2 : ℚ) ^ k ≤ c.value := by
      have b1 : (2 * (2 * (r : ℝ) * (2 : ℝ) ^ k)) < (c.value : ℝ) + (y.value : ℝ) := by linarith
      have b2 : (2 * (2 * (r : ℚ) * (2 : ℚ) ^ k)) < c.value + y.value := by
        rw [← Rat.cast_lt (K := ℝ)]
        push_cast
        exact b1
      have b3 := he1.2
      nlinarith
    obtain ⟨m1, hm1⟩ := mult c a3
    rw [ek _ _ hm1, ek _ _ hm2] at a2
    rw [hm1, hm2] at a1
    have c1 : (2 * (r : ℝ)) < 2 * (m1 + m2) := by
      have : (2 * (r : ℝ)) * (2 : ℝ) ^ k < (2 * (m1 + m2)) * (2 : ℝ) ^ k := by nlinarith
      exact lt_of_mul_lt_mul_right this hwR.le
    have c2 : (2 * ((m1 : ℚ) + m2)) ≤ 2 * r + 1 := by
      have : (2 * ((m1 : ℚ) + m2)) * (2 : ℚ) ^ k ≤ (2 * r + 1) * (2 : ℚ) ^ k := by nlinarith
      exact le_of_mul_le_mul_right this hw
    have c1' : 2 * r < 2 * (m1 + m2) := by exact_mod_cast c1
    have c2' : 2 * (m1 + m2) ≤ 2 * r + 1 := by exact_mod_cast c2
    omega
  · rw [heq] at hc
    exact lt_irrefl _ hc
  · have hgtR : (y.value : ℝ) < (c.value : ℝ) := by exact_mod_cast hgt
    have a1 : 2 * ((2 * (r : ℚ) + 1) * (2 : ℚ) ^ k) ≤ c.value + y.value := by nlinarith
    have a2 : (c.value : ℝ) + (y.value : ℝ) < 2 * x := by nlinarith
    obtain ⟨m1, hm1⟩ := mult c (hyb.trans hgt.le)
    rw [ek _ _ hm1, ek _ _ hm2] at a2
    rw [hm1, hm2] at a1
    have c1 : 2 * ((m1 : ℝ) + m2) < 2 * ((r : ℝ) + 1) := by
      have : (2 * ((m1 : ℝ) + m2)) * (2 : ℝ) ^ k < (2 * ((r : ℝ) + 1)) * (2 : ℝ) ^ k := by nlinarith
      exact lt_of_mul_lt_mul_right this hwR.le
    have c2 : 2 * (r : ℚ) + 1 ≤ 2 * (m1 + m2) := by
      have : (2 * (r : ℚ) + 1) * (2 : ℚ) ^ k ≤ (2 * ((m1 : ℚ) + m2)) * (2 : ℚ) ^ k := by nlinarith
      exact le_of_mul_le_mul_right this hw
    have c1' : 2 * (m1 + m2) < 2 * (r + 1) := by exact_mod_cast c1
    have c2' : 2 * r + 1 ≤ 2 * (m1 + m2) := by exact_mod_cast c2
    omega

theorem sqrtAt_spec {n : Nat} (hn : 0 < n) (hn2 : n < 2 ^ 54) {h : Int} (h1 : -540 ≤ h) (h2 : h ≤ 490) :
    sqrtAt n (2 * h) < infC ∧
    (∀ c : Dbl, |((signed false (sqrtAt n (2 * h))).value : ℝ) - √n * (2 : ℝ) ^ h| ≤ |(c.value : ℝ) - √n * (2 : ℝ) ^ h|) ∧
    |((signed false (sqrtAt n (2 * h))).value : ℝ) - √n * (2 : ℝ) ^ h| ≤ (2 : ℝ) ^ (-52 : Int) * (√n * (2 : ℝ) ^ h) := by
  obtain ⟨s1, s2⟩ := isqrt_spec (n := n * 2 ^ 112) 84 0 (by omega) (by omega)
  unfold sqrtAt
  generalize isqrt (n * 2 ^ 112) 84 0 = r at s1 s2 ⊢
  dsimp only
  rw [show (2 * h) / 2 = h by omega]
  have hr1 : 2 ^ 56 ≤ r := by
    by_contra hlt
    have : (r + 1) * (r + 1) ≤ 2 ^ 56 * 2 ^ 56 := Nat.mul_le_mul (by omega) (by omega)
    omega
  have hr2 : r < 2 ^ 84 := by
    by_contra hlt
    have : 2 ^ 84 * 2 ^ 84 ≤ r * r := Nat.mul_le_mul (by omega) (by omega)
    omega
  -- the exact root, in units
  have hroot : √n * (2 : ℝ) ^ h = 2 * √((n * 2 ^ 112 : Nat) : ℝ) * (2 : ℝ) ^ (h - 57) := by
    rw [Nat.cast_mul, Real.sqrt_mul (by positivity), show ((2 ^ 112 : Nat) : ℝ) = ((2 : ℝ) ^ 56) ^ 2 by push_cast; norm_num,
      Real.sqrt_sq (by positivity), zpow_sub₀ (by norm_num), show (2 : ℝ) ^ (57 : Int) = 2 * 2 ^ 56 by norm_num]
    field_simp
  have hR1 : (r : ℝ) ≤ √((n * 2 ^ 112 : Nat) : ℝ) := by
    apply Real.le_sqrt_of_sq_le
    rw [sq]
    exact_mod_cast s1
  have hR2 : √((n * 2 ^ 112 : Nat) : ℝ) < (r : ℝ) + 1 := by
    rw [Real.sqrt_lt' (by positivity), sq]
    exact_mod_cast s2
  generalize hst : (if r * r = n * 2 ^ 112 then 0 else 1 : Nat) = st
  have hst1 : st ≤ 1 := by rw [← hst]; split <;> omega
  have hw : (0 : ℚ) < (2 : ℚ) ^ (h - 57) := by positivity
  have hwR : (0 : ℝ) < (2 : ℝ) ^ (h - 57) := by positivity
  have hround : signed false (round (2 * r + st) 1 (h - 57)) = roundInt ((2 * r + st : Nat) : Int) 1 (h - 57) := by
    unfold roundInt
    rw [Int.natAbs_natCast, decide_eq_false (by omega)]
  have hfit : (roundInt ((2 * r + st : Nat) : Int) 1 (h - 57)).Finite := by
    apply roundInt_fits (by norm_num)
    rw [Int.cast_natCast, Nat.cast_one, div_one, abs_of_nonneg (by positivity)]
    have a1 : ((2 * r + st : Nat) : ℚ) ≤ (2 : ℚ) ^ (86 : Int) := by
      have : 2 * r + st ≤ 2 ^ 86 := by omega
      exact_mod_cast this
    have a2 : (2 : ℚ) ^ (h - 57) ≤ (2 : ℚ) ^ (440 : Int) := zpow_le_zpow_right₀ (by norm_num) (by omega)
    calc ((2 * r + st : Nat) : ℚ) * (2 : ℚ) ^ (h - 57) ≤ (2 : ℚ) ^ (86 : Int) * (2 : ℚ) ^ (440 : Int) := by gcongr
      _ ≤ largest.value := by
        rw [← zpow_add₀ (by norm_num)]
        exact (zpow_le_zpow_right₀ (by norm_num) (by norm_num)).trans dbl_largest
  have hfin : round (2 * r + st) 1 (h - 57) < infC := by
    have := hfit
    rw [← hround] at this
    unfold Finite at this
    rwa [natAbs_signed] at this
  have hnear := fun c => roundInt_nearest (by norm_num) hfit c
  have herr := roundInt_error (by norm_num) hfit (Or.inl ⟨rfl, by omega⟩)
  rw [← hround] at hnear herr
  simp only [Int.cast_natCast, Nat.cast_one, div_one] at hnear herr
  rw [abs_of_nonneg (a := ((2 * r + st : Nat) : ℚ) * (2 : ℚ) ^ (h - 57)) (by positivity)] at herr
  refine ⟨hfin, ?_, ?_⟩
  · rw [hroot]
    by_cases hex : r * r = n * 2 ^ 112
    · have h0 : st = 0 := by rw [← hst, if_pos hex]
      have hsq : √((n * 2 ^ 112 : Nat) : ℝ) = r := by
        rw [← hex]; push_cast; exact Real.sqrt_mul_self (by positivity)
      rw [hsq]
      intro c
      have := hnear c
      rw [h0] at this ⊢
      have t : ((|(signed false (round (2 * r + 0) 1 (h - 57))).value - ((2 * r + 0 : Nat) : ℚ) * (2 : ℚ) ^ (h - 57)| : ℚ) : ℝ) ≤
        ((|c.value - ((2 * r + 0 : Nat) : ℚ) * (2 : ℚ) ^ (h - 57)| : ℚ) : ℝ) := by exact_mod_cast this
      push_cast at t
      simpa using t
    · have h0 : st = 1 := by rw [← hst, if_neg hex]
      have hne : (r : ℝ) < √((n * 2 ^ 112 : Nat) : ℝ) := by
        rw [Real.lt_sqrt (by positivity), sq]
        exact_mod_cast lt_of_le_of_ne s1 hex
      rw [h0] at hnear herr ⊢
      exact nearest_sticky (by omega) (mul_lt_mul_of_pos_right (by linarith) hwR) (mul_lt_mul_of_pos_right (by linarith) hwR) hnear herr
  · rw [hroot]
    have t : |((signed false (round (2 * r + st) 1 (h - 57))).value : ℝ) - (2 * (r : ℝ) + st) * (2 : ℝ) ^ (h - 57)| ≤
        (2 : ℝ) ^ (-53 : Int) * ((2 * (r : ℝ) + st) * (2 : ℝ) ^ (h - 57)) := by
      have : ((|(signed false (round (2 * r + st) 1 (h - 57))).value - ((2 * r + st : Nat) : ℚ) * (2 : ℚ) ^ (h - 57)| : ℚ) : ℝ) ≤
        (((2 : ℚ) ^ (-53 : Int) * (((2 * r + st : Nat) : ℚ) * (2 : ℚ) ^ (h - 57)) : ℚ) : ℝ) := by exact_mod_cast herr
      push_cast at this
      exact this
    have hstR : (st : ℝ) ≤ 1 := by exact_mod_cast hst1
    have hst0 : (0 : ℝ) ≤ (st : ℝ) := by positivity
    have hrR : (2 : ℝ) ^ 56 ≤ (r : ℝ) := by exact_mod_cast hr1
    generalize (2 : ℝ) ^ (h - 57) = w at *
    generalize √((n * 2 ^ 112 : Nat) : ℝ) = ρ at *
    generalize ((signed false (round (2 * r + st) 1 (h - 57))).value : ℝ) = y at *
    have h53 : (2 : ℝ) ^ (-53 : Int) = 1 / 2 ^ 53 := by norm_num
    have h52 : (2 : ℝ) ^ (-52 : Int) = 1 / 2 ^ 52 := by norm_num
    rw [h53] at t
    rw [h52]
    have t2 := abs_le.1 t
    have b1 : r * w ≤ ρ * w := mul_le_mul_of_nonneg_right hR1 hwR.le
    have b2 : ρ * w ≤ (r + 1) * w := mul_le_mul_of_nonneg_right hR2.le hwR.le
    have b3 : st * w ≤ 1 * w := mul_le_mul_of_nonneg_right hstR hwR.le
    have b4 : 0 ≤ st * w := mul_nonneg hst0 hwR.le
    have b5 : 2 ^ 56 * w ≤ r * w := mul_le_mul_of_nonneg_right hrR hwR.le
    rw [abs_le]
    constructor <;> nlinarith

theorem sqrt_root {n : Nat} {h : Int} : √((n : ℝ) * (2 : ℝ) ^ (2 * h)) = √n * (2 : ℝ) ^ h := by
  rw [Real.sqrt_mul (by positivity), mul_comm 2 h, zpow_mul, show ((2 : ℝ) ^ h) ^ (2 : Int) = ((2 : ℝ) ^ h) ^ 2 from rfl, Real.sqrt_sq (by positivity)]

/-- the square root of a positive double is the nearest double, with a small relative error -/
theorem sqrt_spec {a : Dbl} (ha : a.Finite) (hpos : 0 < a.code) :
    (sqrt a).Finite ∧ (∀ c : Dbl, |((sqrt a).value : ℝ) - √(a.value : ℝ)| ≤ |(c.value : ℝ) - √(a.value : ℝ)|) ∧
      |((sqrt a).value : ℝ) - √(a.value : ℝ)| ≤ (2 : ℝ) ^ (-52 : Int) * √(a.value : ℝ) := by
  obtain ⟨hc, hlow, hlt, hge⟩ := codeOf_mant a.code.natAbs
  have hv : (a.value : ℝ) = (mant a.code.natAbs : ℝ) * (2 : ℝ) ^ expo a.code.natAbs := by
    unfold value
    rw [if_neg (by omega)]
    unfold valueN
    push_cast
    rfl
  have hm : 0 < mant a.code.natAbs := by
    unfold mant
    split <;> omega
  have hhi : expo a.code.natAbs ≤ 971 := by
    unfold Finite infC at ha
    unfold expo
    split <;> omega
  unfold sqrt
  rw [if_neg (by omega), if_neg (by unfold isInf; unfold Finite at ha; simp; omega), hv]
  generalize mant a.code.natAbs = m at *
  generalize expo a.code.natAbs = e at *
  have fin : ∀ c : Nat, c < infC → (signed false c).Finite := by
    intro c hc
    unfold Finite
    rwa [natAbs_signed]
  split
  · next he =>
    obtain ⟨h, rfl⟩ : ∃ h, e = 2 * h := ⟨e / 2, by omega⟩
    obtain ⟨p1, p2, p3⟩ := sqrtAt_spec hm (by omega) (h := h) (by omega) (by omega)
    rw [sqrt_root]
    exact ⟨fin _ p1, p2, p3⟩
  · next he =>
    obtain ⟨h, rfl⟩ : ∃ h, e = 2 * h + 1 := ⟨e / 2, by omega⟩
    obtain ⟨p1, p2, p3⟩ := sqrtAt_spec (n := 2 * m) (by omega) (by omega) (h := h) (by omega) (by omega)
    have e1 : (m : ℝ) * (2 : ℝ) ^ (2 * h + 1) = ((2 * m : Nat) : ℝ) * (2 : ℝ) ^ (2 * h) := by
      rw [zpow_add₀ (by norm_num)]; push_cast; ring
    rw [e1, sqrt_root, show 2 * h + 1 - 1 = 2 * h by ring]
    exact ⟨fin _ p1, p2, p3⟩

end Dbl

end CoMMA
