import Verif.Spec.Double
import Mathlib.Tactic.Linarith
import Mathlib.Tactic.Positivity
import Mathlib.Tactic.Ring
import Mathlib.Tactic.FieldSimp
import Mathlib.Tactic.NormNum
/-! # Facts about doubles -/

namespace CoMMA

theorem dbl_lawful : LawfulLt Dbl where
  irrefl a := by simp [Num.lt]
  trans a b c := by simp only [Num.lt, decide_eq_true_eq]; omega
  total a b := by
    simp only [Num.lt, decide_eq_false_iff_not]
    intro h1 h2
    cases a; cases b; simp at *; omega

namespace Dbl

theorem nearest_cases {n d : Nat} (hd : 0 < d) :
    2 * (nearest n d * d) ≤ 2 * n + d ∧ 2 * n ≤ 2 * (nearest n d * d) + d := by
  have h := Nat.div_add_mod n d
  have h' := Nat.mod_lt n hd
  unfold nearest
  by_cases hc : d < 2 * (n % d) ∨ (2 * (n % d) = d ∧ n / d % 2 = 1)
  · rw [if_pos hc, Nat.add_mul, Nat.mul_comm (n / d)]
    constructor <;> rcases hc with hc | hc <;> omega
  · rw [if_neg hc, Nat.mul_comm (n / d)]
    constructor <;> omega

/-- a positive number written for rounding: `N / D` units of `2 ^ u`, with 53 bits before the point unless the unit is the
smallest -/
structure Canon (q : ℚ) (u : Int) (N D : Nat) : Prop where
  low : -1074 ≤ u
  pos : 0 < D
  eq : (N : ℚ) / D * (2 : ℚ) ^ u = q
  lt : N < 2 ^ 53 * D
  ge : u = -1074 ∨ 2 ^ 52 * D ≤ N

theorem two_zpow_sub (a b : Int) : (2 : ℚ) ^ (a - b) = (2 : ℚ) ^ (a - b).toNat / (2 : ℚ) ^ (b - a).toNat := by
  have h : a - b = ((a - b).toNat : Int) - ((b - a).toNat : Int) := by omega
  conv_lhs => rw [h]
  rw [zpow_sub₀ (by norm_num), zpow_natCast, zpow_natCast]

theorem ratio_shift (n d : Nat) (e u : Int) :
    ((n * 2 ^ (e - u).toNat : Nat) : ℚ) / ((d * 2 ^ (u - e).toNat : Nat) : ℚ) = (n : ℚ) / d * (2 : ℚ) ^ (e - u) := by
  rw [two_zpow_sub]
  push_cast
  rw [div_mul_div_comm]

theorem log2_bounds {n : Nat} (hn : 0 < n) :
    (2 : ℚ) ^ (Nat.log2 n : Int) ≤ (n : ℚ) ∧ (n : ℚ) < (2 : ℚ) ^ ((Nat.log2 n : Int) + 1) := by
  have h1 : 2 ^ Nat.log2 n ≤ n := Nat.log2_self_le (by omega)
  have h2 : n < 2 ^ (Nat.log2 n + 1) := Nat.lt_log2_self
  refine ⟨?_, ?_⟩
  · rw [zpow_natCast]; exact_mod_cast h1
  · rw [show (Nat.log2 n : Int) + 1 = ((Nat.log2 n + 1 : Nat) : Int) by push_cast; rfl, zpow_natCast]
    exact_mod_cast h2

/-- the ratio in units of `2 ^ u` -/
theorem scaled_lt {n d : Nat} (hn : 0 < n) (hd : 0 < d) {e u : Int} (hu : (Nat.log2 n : Int) - Nat.log2 d - 53 + e ≤ u) :
    (n : ℚ) / d * (2 : ℚ) ^ (e - u) < (2 : ℚ) ^ (54 : Int) := by
  have h1 := log2_bounds hn
  have h2 := log2_bounds hd
  have hd' : (0 : ℚ) < d := by exact_mod_cast hd
  have hp : (0 : ℚ) < (2 : ℚ) ^ (e - u) := by positivity
  have h3 : (2 : ℚ) ^ (e - u) ≤ (2 : ℚ) ^ (53 - (Nat.log2 n : Int) + Nat.log2 d) :=
    zpow_le_zpow_right₀ (by norm_num) (by omega)
  rw [div_mul_eq_mul_div, div_lt_iff₀ hd']
  calc (n : ℚ) * (2 : ℚ) ^ (e - u) < (2 : ℚ) ^ ((Nat.log2 n : Int) + 1) * (2 : ℚ) ^ (e - u) :=
        mul_lt_mul_of_pos_right h1.2 hp
    _ ≤ (2 : ℚ) ^ ((Nat.log2 n : Int) + 1) * (2 : ℚ) ^ (53 - (Nat.log2 n : Int) + Nat.log2 d) :=
        mul_le_mul_of_nonneg_left h3 (by positivity)
    _ = (2 : ℚ) ^ (54 : Int) * (2 : ℚ) ^ (Nat.log2 d : Int) := by
        rw [← zpow_add₀ (by norm_num), ← zpow_add₀ (by norm_num)]; congr 1; ring
    _ ≤ (2 : ℚ) ^ (54 : Int) * d := mul_le_mul_of_nonneg_left h2.1 (by positivity)

theorem scaled_gt {n d : Nat} (hn : 0 < n) (hd : 0 < d) {e u : Int} (hu : u = (Nat.log2 n : Int) - Nat.log2 d - 53 + e) :
    (2 : ℚ) ^ (52 : Int) ≤ (n : ℚ) / d * (2 : ℚ) ^ (e - u) := by
  have h1 := log2_bounds hn
  have h2 := log2_bounds hd
  have hd' : (0 : ℚ) < d := by exact_mod_cast hd
  rw [div_mul_eq_mul_div, le_div_iff₀ hd']
  calc (2 : ℚ) ^ (52 : Int) * d ≤ (2 : ℚ) ^ (52 : Int) * (2 : ℚ) ^ ((Nat.log2 d : Int) + 1) :=
        mul_le_mul_of_nonneg_left h2.2.le (by positivity)
    _ = (2 : ℚ) ^ (Nat.log2 n : Int) * (2 : ℚ) ^ (e - u) := by
        rw [← zpow_add₀ (by norm_num), ← zpow_add₀ (by norm_num)]; congr 1; rw [hu]; ring
    _ ≤ n * (2 : ℚ) ^ (e - u) := mul_le_mul_of_nonneg_right h1.1 (by positivity)

theorem lt_mul_of_ratio {N D k : Nat} (hD : 0 < D) (h : (N : ℚ) / D < (k : ℚ)) : N < k * D := by
  have hD' : (0 : ℚ) < D := by exact_mod_cast hD
  rw [div_lt_iff₀ hD'] at h
  exact_mod_cast h

theorem le_mul_of_ratio {N D k : Nat} (hD : 0 < D) (h : (k : ℚ) ≤ (N : ℚ) / D) : k * D ≤ N := by
  have hD' : (0 : ℚ) < D := by exact_mod_cast hD
  rw [le_div_iff₀ hD'] at h
  exact_mod_cast h

theorem round_canon {n d : Nat} (hn : 0 < n) (hd : 0 < d) (e : Int) :
    ∃ u N D, Canon ((n : ℚ) / d * (2 : ℚ) ^ e) u N D ∧ round n d e = encode N D u := by
  obtain ⟨u, hu⟩ : ∃ u, u = max (-1074) ((Nat.log2 n : Int) - Nat.log2 d - 53 + e) := ⟨_, rfl⟩
  have hlow : -1074 ≤ u := by omega
  have hle : (Nat.log2 n : Int) - Nat.log2 d - 53 + e ≤ u := by omega
  have hor : u = -1074 ∨ u = (Nat.log2 n : Int) - Nat.log2 d - 53 + e := by omega
  have hD : 0 < d * 2 ^ (u - e).toNat := Nat.mul_pos hd (Nat.two_pow_pos _)
  have hr := ratio_shift n d e u
  have h54 : n * 2 ^ (e - u).toNat < 2 ^ 54 * (d * 2 ^ (u - e).toNat) := by
    refine lt_mul_of_ratio hD ?_
    rw [hr]
    have := scaled_lt hn hd hle
    norm_num at this ⊢
    exact this
  have h52 : u = -1074 ∨ 2 ^ 52 * (d * 2 ^ (u - e).toNat) ≤ n * 2 ^ (e - u).toNat := by
    refine hor.imp_right fun h => le_mul_of_ratio hD ?_
    rw [hr]
    have := scaled_gt hn hd h
    norm_num at this ⊢
    exact this
  have heq : ((n * 2 ^ (e - u).toNat : Nat) : ℚ) / ((d * 2 ^ (u - e).toNat : Nat) : ℚ) * (2 : ℚ) ^ u =
      (n : ℚ) / d * (2 : ℚ) ^ e := by
    rw [hr, mul_assoc, ← zpow_add₀ (by norm_num)]
    congr 2; ring
  have hrd : round n d e = roundAt n d e u := by
    unfold round
    rw [if_neg (by omega), hu]
  rw [hrd]
  unfold roundAt
  by_cases hc : n * 2 ^ (e - u).toNat < 2 ^ 53 * (d * 2 ^ (u - e).toNat)
  · rw [if_pos hc]
    exact ⟨u, _, _, ⟨hlow, hD, heq, hc, h52⟩, rfl⟩
  · rw [if_neg hc]
    refine ⟨u + 1, _, _, ⟨by omega, by omega, ?_, by omega, Or.inr (by omega)⟩, rfl⟩
    rw [← heq, zpow_add₀ (by norm_num), zpow_one]
    push_cast
    have : ((d : ℚ) * 2 ^ (u - e).toNat) ≠ 0 := by
      have : (0 : ℚ) < d := by exact_mod_cast hd
      positivity
    field_simp

theorem nearest_tie {n d : Nat} (hd : 0 < d)
    (h : 2 * n = 2 * (nearest n d * d) + d ∨ 2 * n + d = 2 * (nearest n d * d)) : nearest n d % 2 = 0 := by
  have hm := Nat.div_add_mod n d
  have hl := Nat.mod_lt n hd
  unfold nearest at h ⊢
  by_cases hc : d < 2 * (n % d) ∨ (2 * (n % d) = d ∧ n / d % 2 = 1)
  · rw [if_pos hc] at h ⊢
    rw [Nat.add_mul, Nat.mul_comm (n / d)] at h
    rcases h with h | h
    · omega
    · rcases hc with hc | hc
      · omega
      · omega
  · rw [if_neg hc] at h ⊢
    rw [Nat.mul_comm (n / d)] at h
    rcases h with h | h
    · have h2 : 2 * (n % d) = d := by omega
      by_contra hne
      exact hc (Or.inr ⟨h2, by omega⟩)
    · omega

theorem nearest_rat {n d : Nat} (hd : 0 < d) :
    |(n : ℚ) / d - (nearest n d : ℚ)| ≤ 1 / 2 ∧
      (|(n : ℚ) / d - (nearest n d : ℚ)| = 1 / 2 → nearest n d % 2 = 0) := by
  obtain ⟨h1, h2⟩ := nearest_cases (n := n) hd
  have hd' : (0 : ℚ) < d := by exact_mod_cast hd
  have h1' : 2 * ((nearest n d : ℚ) * d) ≤ 2 * n + d := by exact_mod_cast h1
  have h2' : 2 * (n : ℚ) ≤ 2 * ((nearest n d : ℚ) * d) + d := by exact_mod_cast h2
  have e1 : (n : ℚ) = (n : ℚ) / d * d := by field_simp
  refine ⟨?_, ?_⟩
  · rw [abs_le]
    constructor
    · rw [← sub_nonneg]
      have : (n : ℚ) / d - nearest n d - -(1 / 2) = (2 * n + d - 2 * (nearest n d * d)) / (2 * d) := by field_simp; ring
      rw [this]
      exact div_nonneg (by linarith) (by positivity)
    · rw [← sub_nonneg]
      have : 1 / 2 - ((n : ℚ) / d - nearest n d) = (2 * (nearest n d * d) + d - 2 * n) / (2 * d) := by field_simp; ring
      rw [this]
      exact div_nonneg (by linarith) (by positivity)
  · intro h
    refine nearest_tie hd ?_
    rcases abs_eq (by norm_num : (0 : ℚ) ≤ 1 / 2) |>.1 h with h | h
    · left
      have : 2 * (n : ℚ) = 2 * ((nearest n d : ℚ) * d) + d := by
        have : (n : ℚ) / d = nearest n d + 1 / 2 := by linarith
        rw [e1, this]; ring
      exact_mod_cast this
    · right
      have : 2 * (n : ℚ) + d = 2 * ((nearest n d : ℚ) * d) := by
        have : (n : ℚ) / d = nearest n d - 1 / 2 := by linarith
        rw [e1, this]; ring
      exact_mod_cast this

theorem nearest_mono {n d n' d' : Nat} (hd : 0 < d) (hd' : 0 < d') (h : (n : ℚ) / d ≤ (n' : ℚ) / d') :
    nearest n d ≤ nearest n' d' := by
  by_contra hlt
  have h1 := nearest_rat (n := n) hd
  have h2 := nearest_rat (n := n') hd'
  have hlt' : nearest n' d' + 1 ≤ nearest n d := by omega
  have hltq : (nearest n' d' : ℚ) + 1 ≤ nearest n d := by exact_mod_cast hlt'
  have a1 := abs_le.1 h1.1
  have a2 := abs_le.1 h2.1
  have b1 : (n : ℚ) / d - nearest n d = -(1 / 2) := by linarith
  have b2 : (n' : ℚ) / d' - nearest n' d' = 1 / 2 := by linarith
  have c1 := h1.2 (by rw [b1]; norm_num)
  have c2 := h2.2 (by rw [b2]; norm_num)
  have e : (nearest n d : ℚ) = nearest n' d' + 1 := by linarith
  have e' : nearest n d = nearest n' d' + 1 := by exact_mod_cast e
  omega

theorem nearest_int {n d k : Nat} (hd : 0 < d) (h : (n : ℚ) / d = k) : nearest n d = k := by
  have h1 := abs_le.1 (nearest_rat (n := n) hd).1
  rw [h] at h1
  have a : (nearest n d : ℚ) < (k : ℚ) + 1 := by linarith
  have b : (k : ℚ) < (nearest n d : ℚ) + 1 := by linarith
  have a' : nearest n d < k + 1 := by exact_mod_cast a
  have b' : k < nearest n d + 1 := by exact_mod_cast b
  omega

theorem Canon.near_le {q : ℚ} {u : Int} {N D : Nat} (h : Canon q u N D) : nearest N D ≤ 2 ^ 53 := by
  have h1 := (nearest_cases (n := N) h.pos).1
  have h2 := h.lt
  by_contra hlt
  have : (2 ^ 53 + 1) * D ≤ nearest N D * D := Nat.mul_le_mul_right _ (by omega)
  have := h.pos
  omega

theorem Canon.near_ge {q : ℚ} {u : Int} {N D : Nat} (h : Canon q u N D) : u = -1074 ∨ 2 ^ 52 ≤ nearest N D := by
  refine h.ge.imp_right fun hge => ?_
  have h1 := (nearest_cases (n := N) h.pos).2
  by_contra hlt
  have : nearest N D * D ≤ (2 ^ 52 - 1) * D := Nat.mul_le_mul_right _ (by omega)
  have := h.pos
  omega

/-- code of `m` units of `2 ^ u` -/
def codeOf (u : Int) (m : Nat) : Nat := ((u + 1074) * 2 ^ 52).toNat + m

theorem codeOf_eq {u : Int} (hu : -1074 ≤ u) (m : Nat) : codeOf u m = (u + 1074).toNat * 2 ^ 52 + m := by
  unfold codeOf; omega

theorem valueN_codeOf {u : Int} {m : Nat} (hu : -1074 ≤ u) (hm : m ≤ 2 ^ 53) (h : u = -1074 ∨ 2 ^ 52 ≤ m) :
    valueN (codeOf u m) = (m : ℚ) * (2 : ℚ) ^ u := by
  rw [codeOf_eq hu]
  obtain ⟨k, hk⟩ : ∃ k : Nat, k = (u + 1074).toNat := ⟨_, rfl⟩
  have hku : u = (k : Int) - 1074 := by omega
  rw [← hk]
  unfold valueN mant expo
  by_cases h0 : m < 2 ^ 52
  · have hk0 : k = 0 := by omega
    subst hk0
    rw [if_pos (by omega), if_pos (by omega), hku]
    simp
  · by_cases h1 : m < 2 ^ 53
    · have e1 : (k * 2 ^ 52 + m) / 2 ^ 52 = k + 1 := by omega
      have e2 : (k * 2 ^ 52 + m) % 2 ^ 52 = m - 2 ^ 52 := by omega
      rw [e1, e2, if_neg (by omega), if_neg (by omega), show 2 ^ 52 + (m - 2 ^ 52) = m by omega, hku]
      congr 2
      push_cast; ring
    · have hm' : m = 2 ^ 53 := by omega
      subst hm'
      have e1 : (k * 2 ^ 52 + 2 ^ 53) / 2 ^ 52 = k + 2 := by omega
      have e2 : (k * 2 ^ 52 + 2 ^ 53) % 2 ^ 52 = 0 := by omega
      rw [e1, e2, if_neg (by omega), if_neg (by omega), show (((k + 2 : Nat) : Int) - 1075) = u + 1 by omega,
        zpow_add₀ (by norm_num), zpow_one]
      norm_num; ring

/-- every code is of that form -/
theorem codeOf_mant (c : Nat) : codeOf (expo c) (mant c) = c ∧ -1074 ≤ expo c ∧ mant c < 2 ^ 53 ∧
    (expo c = -1074 ∨ 2 ^ 52 ≤ mant c) := by
  unfold codeOf expo mant
  by_cases h : c / 2 ^ 52 = 0
  · rw [if_pos h, if_pos h]
    omega
  · rw [if_neg h, if_neg h]
    omega

/-- two ways of writing numbers for rounding -/
theorem Canon.unit_le {q q' : ℚ} {u u' : Int} {N D N' D' : Nat} (h : Canon q u N D) (h' : Canon q' u' N' D') (hq : q ≤ q') :
    u ≤ u' := by
  by_contra hlt
  have hD : (0 : ℚ) < D := by exact_mod_cast h.pos
  have hD' : (0 : ℚ) < D' := by exact_mod_cast h'.pos
  have hge : 2 ^ 52 * D ≤ N := h.ge.resolve_left (by have := h'.low; omega)
  have h1 : (2 : ℚ) ^ (52 : Nat) ≤ (N : ℚ) / D := by
    rw [le_div_iff₀ hD]; exact_mod_cast hge
  have h2 : (N' : ℚ) / D' < (2 : ℚ) ^ (53 : Nat) := by
    rw [div_lt_iff₀ hD']; exact_mod_cast h'.lt
  have h3 : (2 : ℚ) ^ (u' + 1) ≤ (2 : ℚ) ^ u := zpow_le_zpow_right₀ (by norm_num) (by omega)
  rw [zpow_add₀ (by norm_num), zpow_one] at h3
  have hp : (0 : ℚ) < (2 : ℚ) ^ u' := by positivity
  rw [← h.eq, ← h'.eq] at hq
  have : (2 : ℚ) ^ (52 : Nat) * ((2 : ℚ) ^ u' * 2) ≤ (N : ℚ) / D * (2 : ℚ) ^ u :=
    mul_le_mul h1 h3 (by positivity) (by positivity)
  have h5 : (N' : ℚ) / D' * (2 : ℚ) ^ u' < (2 : ℚ) ^ (53 : Nat) * (2 : ℚ) ^ u' := mul_lt_mul_of_pos_right h2 hp
  have h6 : (2 : ℚ) ^ (52 : Nat) * ((2 : ℚ) ^ u' * 2) = (2 : ℚ) ^ (53 : Nat) * (2 : ℚ) ^ u' := by ring
  linarith

theorem Canon.code_mono {q q' : ℚ} {u u' : Int} {N D N' D' : Nat} (h : Canon q u N D) (h' : Canon q' u' N' D') (hq : q ≤ q') :
    codeOf u (nearest N D) ≤ codeOf u' (nearest N' D') := by
  have hu := h.unit_le h' hq
  rcases Int.lt_or_eq_of_le hu with hlt | heq
  · have h1 := h.near_le
    have h2 := h'.near_ge.resolve_left (by have := h.low; omega)
    rw [codeOf_eq h.low, codeOf_eq h'.low]
    have := h.low
    omega
  · subst heq
    have : (N : ℚ) / D ≤ (N' : ℚ) / D' := by
      have hp : (0 : ℚ) < (2 : ℚ) ^ u := by positivity
      rw [← h.eq, ← h'.eq] at hq
      exact le_of_mul_le_mul_right hq hp
    exact Nat.add_le_add_left (nearest_mono h.pos h'.pos this) _

theorem encode_eq (N D : Nat) (u : Int) : encode N D u = min infC (codeOf u (nearest N D)) := rfl

/-- rounding respects the order -/
theorem round_mono {n d n' d' : Nat} (hd : 0 < d) (hd' : 0 < d') {e e' : Int}
    (h : (n : ℚ) / d * (2 : ℚ) ^ e ≤ (n' : ℚ) / d' * (2 : ℚ) ^ e') : round n d e ≤ round n' d' e' := by
  by_cases hn : n = 0
  · simp [round, hn]
  by_cases hn' : n' = 0
  · exfalso
    have h1 : (0 : ℚ) < n := by exact_mod_cast Nat.pos_of_ne_zero hn
    have h2 : (0 : ℚ) < d := by exact_mod_cast hd
    have : (0 : ℚ) < (n : ℚ) / d * (2 : ℚ) ^ e := by positivity
    rw [hn'] at h
    simp at h
    linarith
  · obtain ⟨u, N, D, hc, he⟩ := round_canon (Nat.pos_of_ne_zero hn) hd e
    obtain ⟨u', N', D', hc', he'⟩ := round_canon (Nat.pos_of_ne_zero hn') hd' e'
    rw [he, he', encode_eq, encode_eq]
    have := hc.code_mono hc' h
    omega

/-- a number that is a double is not changed -/
theorem round_exact {n d : Nat} (hd : 0 < d) {e : Int} {c : Nat} (h : (n : ℚ) / d * (2 : ℚ) ^ e = valueN c) :
    round n d e = min infC c := by
  obtain ⟨hc, hlow, hlt, hge⟩ := codeOf_mant c
  by_cases hn : n = 0
  · have : valueN c = 0 := by rw [← h, hn]; simp
    unfold valueN at this
    have hp : (0 : ℚ) < (2 : ℚ) ^ expo c := by positivity
    have hm : (mant c : ℚ) = 0 := by
      rcases mul_eq_zero.1 this with h | h
      · exact h
      · exact absurd h hp.ne'
    have hm' : mant c = 0 := by exact_mod_cast hm
    have : c = 0 := by
      unfold mant at hm'
      split at hm' <;> omega
    simp [round, hn, this]
  · obtain ⟨u, N, D, hk, he⟩ := round_canon (Nat.pos_of_ne_zero hn) hd e
    have hk' : Canon ((n : ℚ) / d * (2 : ℚ) ^ e) (expo c) (mant c) 1 :=
      ⟨hlow, by omega, by rw [h, valueN]; simp, by omega, by omega⟩
    have hu : u = expo c := Int.le_antisymm (hk.unit_le hk' le_rfl) (hk'.unit_le hk le_rfl)
    rw [he, encode_eq]
    congr 1
    have hr : (N : ℚ) / D = mant c := by
      have hp : (2 : ℚ) ^ u ≠ 0 := by positivity
      have h1 := hk.eq
      rw [h, valueN, ← hu] at h1
      exact mul_right_cancel₀ hp h1
    rw [nearest_int hk.pos hr, hu, hc]

/-- relative error of rounding, for numbers that are not too small -/
theorem round_error {n d : Nat} (hd : 0 < d) {e : Int} (hf : round n d e < infC)
    (hbig : (d = 1 ∧ -1074 ≤ e) ∨ (2 : ℚ) ^ (-1022 : Int) ≤ (n : ℚ) / d * (2 : ℚ) ^ e) :
    |valueN (round n d e) - (n : ℚ) / d * (2 : ℚ) ^ e| ≤ (2 : ℚ) ^ (-53 : Int) * ((n : ℚ) / d * (2 : ℚ) ^ e) := by
  by_cases hn : n = 0
  · simp [round, hn, valueN, mant]
  · obtain ⟨u, N, D, hk, he⟩ := round_canon (Nat.pos_of_ne_zero hn) hd e
    rw [he, encode_eq] at hf ⊢
    have hmin : min infC (codeOf u (nearest N D)) = codeOf u (nearest N D) := by omega
    rw [hmin, valueN_codeOf hk.low hk.near_le hk.near_ge]
    have hD : (0 : ℚ) < D := by exact_mod_cast hk.pos
    have hp : (0 : ℚ) < (2 : ℚ) ^ u := by positivity
    have hnr := (nearest_rat (n := N) hk.pos).1
    rw [← hk.eq, ← sub_mul, abs_mul, abs_of_pos hp, abs_sub_comm, ← mul_assoc]
    refine mul_le_mul_of_nonneg_right ?_ hp.le
    by_cases hge : 2 ^ 52 * D ≤ N
    · have h1 : (2 : ℚ) ^ (52 : Nat) ≤ (N : ℚ) / D := by
        rw [le_div_iff₀ hD]; exact_mod_cast hge
      refine hnr.trans ?_
      have : (1 : ℚ) / 2 = (2 : ℚ) ^ (-53 : Int) * (2 : ℚ) ^ (52 : Nat) := by norm_num
      rw [this]
      exact mul_le_mul_of_nonneg_left h1 (by positivity)
    · have hu : u = -1074 := hk.ge.resolve_right hge
      rcases hbig with ⟨rfl, he0⟩ | hbig
      · have : (N : ℚ) / D = ((n * 2 ^ (e + 1074).toNat : Nat) : ℚ) := by
          have h1 := hk.eq
          rw [hu] at h1
          have h2 : (2 : ℚ) ^ e = (2 : ℚ) ^ (e + 1074).toNat * (2 : ℚ) ^ (-1074 : Int) := by
            rw [← zpow_natCast, ← zpow_add₀ (by norm_num)]
            congr 1; omega
          rw [h2] at h1
          push_cast
          have hp' : (2 : ℚ) ^ (-1074 : Int) ≠ 0 := by positivity
          refine mul_right_cancel₀ hp' ?_
          rw [h1]; simp only [Nat.cast_one]
          generalize (2 : ℚ) ^ (-1074 : Int) = x
          ring
        rw [this, nearest_int hk.pos this]
        simp only [sub_self, abs_zero]
        positivity
      · exfalso
        rw [← hk.eq, hu] at hbig
        have h1 : (N : ℚ) / D < (2 : ℚ) ^ (52 : Nat) := by
          rw [div_lt_iff₀ hD]; exact_mod_cast Nat.lt_of_not_le hge
        have h2 : (2 : ℚ) ^ (-1022 : Int) = (2 : ℚ) ^ (52 : Nat) * (2 : ℚ) ^ (-1074 : Int) := by
          rw [← zpow_natCast, ← zpow_add₀ (by norm_num), show ((52 : Nat) : Int) + (-1074) = -1022 by decide]
        rw [h2] at hbig
        have := le_of_mul_le_mul_right hbig (by positivity)
        linarith

/-- no double is nearer than the rounded number -/
theorem round_nearest {n d : Nat} (hd : 0 < d) {e : Int} (hf : round n d e < infC) (c : Nat) :
    |valueN (round n d e) - (n : ℚ) / d * (2 : ℚ) ^ e| ≤ |valueN c - (n : ℚ) / d * (2 : ℚ) ^ e| := by
  by_cases hn : n = 0
  · simp [round, hn, valueN, mant]
  · obtain ⟨u, N, D, hk, he⟩ := round_canon (Nat.pos_of_ne_zero hn) hd e
    rw [he, encode_eq] at hf ⊢
    have hmin : min infC (codeOf u (nearest N D)) = codeOf u (nearest N D) := by omega
    rw [hmin, valueN_codeOf hk.low hk.near_le hk.near_ge]
    have hp : (0 : ℚ) < (2 : ℚ) ^ u := by positivity
    have hD : (0 : ℚ) < D := by exact_mod_cast hk.pos
    have hnr := (nearest_rat (n := N) hk.pos).1
    have hint : ∀ k : Nat, |(nearest N D : ℚ) - (N : ℚ) / D| ≤ |(k : ℚ) - (N : ℚ) / D| := by
      intro k
      by_cases hkm : k = nearest N D
      · rw [hkm]
      · have h1 : (1 : ℚ) ≤ |(k : ℚ) - nearest N D| := by
          have : (1 : Int) ≤ |(k : Int) - nearest N D| := Int.one_le_abs (by omega)
          exact_mod_cast this
        rw [abs_sub_comm] at hnr
        have h2 : |(k : ℚ) - nearest N D| ≤ |(k : ℚ) - (N : ℚ) / D| + |(N : ℚ) / D - nearest N D| := abs_sub_le _ _ _
        rw [abs_sub_comm ((N : ℚ) / D)] at h2
        linarith
    have hmul : ∀ k : Nat, |(nearest N D : ℚ) * (2 : ℚ) ^ u - (N : ℚ) / D * (2 : ℚ) ^ u| ≤
        |(k : ℚ) * (2 : ℚ) ^ u - (N : ℚ) / D * (2 : ℚ) ^ u| := by
      intro k
      rw [← sub_mul, ← sub_mul, abs_mul, abs_mul]
      exact mul_le_mul_of_nonneg_right (hint k) (abs_nonneg _)
    rw [← hk.eq]
    obtain ⟨hc, hlow, hlt, hge⟩ := codeOf_mant c
    by_cases hcu : u ≤ expo c
    · have : valueN c = ((mant c * 2 ^ (expo c - u).toNat : Nat) : ℚ) * (2 : ℚ) ^ u := by
        unfold valueN
        push_cast
        rw [mul_assoc, ← zpow_natCast, ← zpow_add₀ (by norm_num)]
        congr 2; omega
      rw [this]
      exact hmul _
    · refine (hmul (2 ^ 52)).trans ?_
      have hge' : 2 ^ 52 * D ≤ N := hk.ge.resolve_left (by omega)
      have h1 : ((2 ^ 52 : Nat) : ℚ) ≤ (N : ℚ) / D := by
        rw [le_div_iff₀ hD]; exact_mod_cast hge'
      have h2 : valueN c ≤ ((2 ^ 52 : Nat) : ℚ) * (2 : ℚ) ^ u := by
        unfold valueN
        have h3 : (2 : ℚ) ^ (expo c + 1) ≤ (2 : ℚ) ^ u := zpow_le_zpow_right₀ (by norm_num) (by omega)
        rw [zpow_add₀ (by norm_num), zpow_one] at h3
        have h4 : (mant c : ℚ) ≤ ((2 ^ 52 : Nat) : ℚ) * 2 := by
          have : mant c ≤ 2 ^ 52 * 2 := by omega
          exact_mod_cast this
        have hpe : (0 : ℚ) < (2 : ℚ) ^ expo c := by positivity
        calc (mant c : ℚ) * (2 : ℚ) ^ expo c ≤ ((2 ^ 52 : Nat) : ℚ) * 2 * (2 : ℚ) ^ expo c :=
              mul_le_mul_of_nonneg_right h4 hpe.le
          _ = ((2 ^ 52 : Nat) : ℚ) * ((2 : ℚ) ^ expo c * 2) := by ring
          _ ≤ _ := mul_le_mul_of_nonneg_left h3 (by positivity)
      have h5 : ((2 ^ 52 : Nat) : ℚ) * (2 : ℚ) ^ u ≤ (N : ℚ) / D * (2 : ℚ) ^ u := mul_le_mul_of_nonneg_right h1 hp.le
      generalize ((2 ^ 52 : Nat) : ℚ) * (2 : ℚ) ^ u = x at h2 h5 ⊢
      generalize (N : ℚ) / D * (2 : ℚ) ^ u = y at h5 ⊢
      rw [abs_of_nonpos (by linarith), abs_of_nonpos (by linarith)]
      linarith

/-! ## Doubles with their signs -/

theorem natAbs_of_neg {n : Int} (h : n < 0) : (n.natAbs : ℚ) = -(n : ℚ) := by
  obtain ⟨k, rfl⟩ : ∃ k : Nat, n = -(k : Int) := ⟨n.natAbs, by omega⟩
  simp

theorem natAbs_of_not_neg {n : Int} (h : ¬ n < 0) : (n.natAbs : ℚ) = (n : ℚ) := by
  obtain ⟨k, rfl⟩ : ∃ k : Nat, n = (k : Int) := ⟨n.natAbs, by omega⟩
  simp

theorem valueN_nonneg (c : Nat) : 0 ≤ valueN c := by unfold valueN; positivity

theorem valueN_zero : valueN 0 = 0 := by simp [valueN, mant]

theorem valueN_mono {c c' : Nat} (h : c < c') : valueN c < valueN c' := by
  obtain ⟨hc, hlow, hlt, hge⟩ := codeOf_mant c
  obtain ⟨hc', hlow', hlt', hge'⟩ := codeOf_mant c'
  by_contra hle
  have hle : valueN c' ≤ valueN c := le_of_not_gt hle
  have k : Canon (valueN c) (expo c) (mant c) 1 := ⟨hlow, by omega, by rw [valueN]; simp, by omega, by omega⟩
  have k' : Canon (valueN c') (expo c') (mant c') 1 := ⟨hlow', by omega, by rw [valueN]; simp, by omega, by omega⟩
  have := k'.code_mono k hle
  rw [nearest_int (n := mant c) (k := mant c) (by omega) (by simp),
    nearest_int (n := mant c') (k := mant c') (by omega) (by simp), hc, hc'] at this
  omega

theorem value_signed (b : Bool) (c : Nat) : (signed b c).value = if b then -valueN c else valueN c := by
  unfold signed value
  cases b
  · simp
  · by_cases h : c = 0
    · simp [h, valueN_zero]
    · simp; omega

theorem value_eq_sig (a : Dbl) : a.value = (a.sig : ℚ) * (2 : ℚ) ^ expo a.code.natAbs := by
  unfold value sig valueN
  split <;> simp

theorem natAbs_signed (b : Bool) (c : Nat) : (signed b c).code.natAbs = c := by
  unfold signed; cases b <;> simp

theorem value_neg (a : Dbl) : a.neg.value = -a.value := by
  unfold value neg
  rcases Int.lt_trichotomy a.code 0 with h | h | h
  · rw [if_pos h, if_neg (show ¬ -a.code < 0 by omega)]; simp
  · simp [h, valueN_zero]
  · rw [if_neg (show ¬ a.code < 0 by omega), if_pos (show -a.code < 0 by omega)]; simp

theorem value_zero : (⟨0⟩ : Dbl).value = 0 := by simp [value, valueN_zero]

theorem value_lt {a b : Dbl} : a.value < b.value ↔ a.code < b.code := by
  have key : ∀ a b : Dbl, a.code < b.code → a.value < b.value := by
    intro a b h
    unfold value
    by_cases ha : a.code < 0
    · rw [if_pos ha]
      have hpa : 0 < valueN a.code.natAbs := by
        have := valueN_mono (c := 0) (c' := a.code.natAbs) (by omega)
        rwa [valueN_zero] at this
      by_cases hb : b.code < 0
      · rw [if_pos hb]
        have := valueN_mono (c := b.code.natAbs) (c' := a.code.natAbs) (by omega)
        linarith
      · rw [if_neg hb]
        have := valueN_nonneg b.code.natAbs
        linarith
    · rw [if_neg ha, if_neg (by omega)]
      exact valueN_mono (by omega)
  refine ⟨fun h => ?_, key a b⟩
  by_contra hle
  rcases Int.lt_or_eq_of_le (Int.not_lt.1 hle) with hl | he
  · have := key b a hl
    linarith
  · have : a = b := by cases a; cases b; simp at he; simp [he]
    rw [this] at h
    exact lt_irrefl _ h

theorem value_le {a b : Dbl} : a.value ≤ b.value ↔ a.code ≤ b.code := by
  rw [← not_lt, ← Int.not_lt, value_lt]

/-- rounding of a number with a sign -/
theorem roundInt_le {n : Int} {d : Nat} (hd : 0 < d) {e : Int} {b : Dbl} (hb : b.Finite)
    (h : (n : ℚ) / d * (2 : ℚ) ^ e ≤ b.value) : (roundInt n d e).code ≤ b.code := by
  unfold roundInt signed
  have hd' : (0 : ℚ) < d := by exact_mod_cast hd
  have hp : (0 : ℚ) < (2 : ℚ) ^ e := by positivity
  unfold Finite at hb
  by_cases hn : n < 0
  · simp only [hn, decide_true, if_true]
    by_cases hc : b.code < 0
    · have : valueN b.code.natAbs ≤ (n.natAbs : ℚ) / d * (2 : ℚ) ^ e := by
        unfold value at h
        rw [if_pos hc] at h
        have e1 := natAbs_of_neg hn
        rw [e1, neg_div, neg_mul]
        linarith
      have h2 : round (mant b.code.natAbs) 1 (expo b.code.natAbs) = min infC b.code.natAbs :=
        round_exact (by omega) (by simp [valueN])
      have h3 := round_mono (n := mant b.code.natAbs) (d := 1) (e := expo b.code.natAbs) (n' := n.natAbs) (d' := d)
        (e' := e) (by omega) hd (by simpa [valueN] using this)
      omega
    · omega
  · simp only [hn, decide_false]
    have hn0 : (0 : ℚ) ≤ (n : ℚ) := by
      have : (0 : Int) ≤ n := by omega
      exact_mod_cast this
    have hb0 : ¬ b.code < 0 := by
      intro hc
      have : b.value < (⟨0⟩ : Dbl).value := value_lt.2 hc
      rw [value_zero] at this
      have : (0 : ℚ) ≤ (n : ℚ) / d * (2 : ℚ) ^ e := by positivity
      linarith
    have : (n.natAbs : ℚ) / d * (2 : ℚ) ^ e ≤ valueN b.code.natAbs := by
      unfold value at h
      rw [if_neg hb0] at h
      have e1 := natAbs_of_not_neg hn
      rw [e1]; exact h
    have h2 : round (mant b.code.natAbs) 1 (expo b.code.natAbs) = min infC b.code.natAbs :=
      round_exact (by omega) (by simp [valueN])
    have h3 := round_mono (n' := mant b.code.natAbs) (d' := 1) (e' := expo b.code.natAbs) (n := n.natAbs) (d := d)
      (e := e) hd (by omega) (by simpa [valueN] using this)
    simp only [Bool.false_eq_true, if_false]
    omega

theorem roundInt_neg (n : Int) (d : Nat) (e : Int) : (roundInt (-n) d e).code = -(roundInt n d e).code := by
  unfold roundInt signed
  rcases Int.lt_trichotomy n 0 with h | h | h
  · have : ¬ (-n < 0) := by omega
    simp [h]; omega
  · subst h; simp [round]
  · have : ¬ (n < 0) := by omega
    simp [h]; omega

theorem le_roundInt {n : Int} {d : Nat} (hd : 0 < d) {e : Int} {b : Dbl} (hb : b.Finite)
    (h : b.value ≤ (n : ℚ) / d * (2 : ℚ) ^ e) : b.code ≤ (roundInt n d e).code := by
  have := roundInt_le (n := -n) (d := d) hd (e := e) (b := b.neg) (by simpa [Finite, neg] using hb) (by
    rw [value_neg]; push_cast; rw [neg_div, neg_mul]; linarith)
  rw [roundInt_neg] at this
  simp only [neg] at this
  omega

theorem roundInt_error {n : Int} {d : Nat} (hd : 0 < d) {e : Int} (hf : (roundInt n d e).Finite)
    (hbig : (d = 1 ∧ -1074 ≤ e) ∨ (2 : ℚ) ^ (-1022 : Int) ≤ |(n : ℚ) / d * (2 : ℚ) ^ e|) :
    |(roundInt n d e).value - (n : ℚ) / d * (2 : ℚ) ^ e| ≤ (2 : ℚ) ^ (-53 : Int) * |(n : ℚ) / d * (2 : ℚ) ^ e| := by
  have hd' : (0 : ℚ) < d := by exact_mod_cast hd
  have hp : (0 : ℚ) < (2 : ℚ) ^ e := by positivity
  unfold roundInt at hf ⊢
  unfold Finite at hf
  rw [natAbs_signed] at hf
  rw [value_signed]
  by_cases hn : n < 0
  · have e1 : (n : ℚ) = -(n.natAbs : ℚ) := by rw [natAbs_of_neg hn, neg_neg]
    have e2 : (n : ℚ) / d * (2 : ℚ) ^ e = -((n.natAbs : ℚ) / d * (2 : ℚ) ^ e) := by rw [e1]; ring
    have e3 : (0 : ℚ) ≤ (n.natAbs : ℚ) / d * (2 : ℚ) ^ e := by positivity
    rw [e2, abs_neg, abs_of_nonneg e3] at hbig ⊢
    simp only [hn, decide_true, if_true]
    rw [← neg_sub', abs_neg]
    exact round_error hd hf hbig
  · have e1 := (natAbs_of_not_neg hn).symm
    have e2 : (n : ℚ) / d * (2 : ℚ) ^ e = (n.natAbs : ℚ) / d * (2 : ℚ) ^ e := by rw [e1]
    have e3 : (0 : ℚ) ≤ (n.natAbs : ℚ) / d * (2 : ℚ) ^ e := by positivity
    rw [e2, abs_of_nonneg e3] at hbig ⊢
    simp only [hn, decide_false, Bool.false_eq_true, if_false]
    exact round_error hd hf hbig

theorem roundInt_exact {n : Int} {d : Nat} (hd : 0 < d) {e : Int} {b : Dbl} (hb : b.Finite)
    (h : (n : ℚ) / d * (2 : ℚ) ^ e = b.value) : roundInt n d e = b := by
  have h1 := roundInt_le hd hb h.le
  have h2 := le_roundInt hd hb h.ge
  generalize roundInt n d e = x at h1 h2
  cases x; cases b
  simp at *; omega

/-- no double is nearer than the rounded number -/
theorem roundInt_nearest {n : Int} {d : Nat} (hd : 0 < d) {e : Int} (hf : (roundInt n d e).Finite) (c : Dbl) :
    |(roundInt n d e).value - (n : ℚ) / d * (2 : ℚ) ^ e| ≤ |c.value - (n : ℚ) / d * (2 : ℚ) ^ e| := by
  have hd' : (0 : ℚ) < d := by exact_mod_cast hd
  have hp : (0 : ℚ) < (2 : ℚ) ^ e := by positivity
  have key : ∀ (m : Nat) (x : ℚ), (x = valueN c.code.natAbs ∨ x = -valueN c.code.natAbs) → round m d e < infC →
      |valueN (round m d e) - (m : ℚ) / d * (2 : ℚ) ^ e| ≤ |x - (m : ℚ) / d * (2 : ℚ) ^ e| := by
    intro m x hx hr
    refine (round_nearest hd hr c.code.natAbs).trans ?_
    rcases hx with rfl | rfl
    · exact le_rfl
    · have h1 := valueN_nonneg c.code.natAbs
      have h2 : (0 : ℚ) ≤ (m : ℚ) / d * (2 : ℚ) ^ e := by positivity
      rw [abs_of_nonpos (a := -valueN c.code.natAbs - _) (by linarith)]
      exact abs_le.2 ⟨by linarith, by linarith⟩
  unfold roundInt at hf ⊢
  unfold Finite at hf
  rw [natAbs_signed] at hf
  rw [value_signed]
  by_cases hn : n < 0
  · have e1 : (n : ℚ) = -(n.natAbs : ℚ) := by rw [natAbs_of_neg hn, neg_neg]
    have e2 : (n : ℚ) / d * (2 : ℚ) ^ e = -((n.natAbs : ℚ) / d * (2 : ℚ) ^ e) := by rw [e1]; ring
    simp only [hn, decide_true, if_true]
    rw [e2, ← neg_sub', abs_neg]
    have : |c.value - -((n.natAbs : ℚ) / d * (2 : ℚ) ^ e)| = |-c.value - (n.natAbs : ℚ) / d * (2 : ℚ) ^ e| := by
      rw [← abs_neg]; congr 1; ring
    rw [this]
    refine key _ _ ?_ hf
    unfold value; split <;> simp
  · have e1 := (natAbs_of_not_neg hn).symm
    simp only [hn, decide_false, Bool.false_eq_true, if_false]
    rw [e1]
    refine key _ _ ?_ hf
    unfold value; split <;> simp

theorem roundInt_mono {n n' : Int} {d d' : Nat} (hd : 0 < d) (hd' : 0 < d') {e e' : Int}
    (h : (n : ℚ) / d * (2 : ℚ) ^ e ≤ (n' : ℚ) / d' * (2 : ℚ) ^ e') : (roundInt n d e).code ≤ (roundInt n' d' e').code := by
  have hq : (0 : ℚ) < d := by exact_mod_cast hd
  have hq' : (0 : ℚ) < d' := by exact_mod_cast hd'
  have hp : (0 : ℚ) < (2 : ℚ) ^ e := by positivity
  have hp' : (0 : ℚ) < (2 : ℚ) ^ e' := by positivity
  unfold roundInt signed
  by_cases hn : n < 0
  · by_cases hn' : n' < 0
    · have e1 : (n : ℚ) = -(n.natAbs : ℚ) := by rw [natAbs_of_neg hn, neg_neg]
      have e1' : (n' : ℚ) = -(n'.natAbs : ℚ) := by rw [natAbs_of_neg hn', neg_neg]
      have := round_mono (n := n'.natAbs) (n' := n.natAbs) hd' hd (e := e') (e' := e) (by
        rw [e1, e1', neg_div, neg_mul, neg_div, neg_mul] at h
        linarith)
      simp only [hn, hn', decide_true, if_true]
      omega
    · simp only [hn, hn', decide_true, decide_false, if_true, Bool.false_eq_true, if_false]
      omega
  · by_cases hn' : n' < 0
    · exfalso
      have h1 : (0 : ℚ) ≤ n := by
        have : (0 : Int) ≤ n := by omega
        exact_mod_cast this
      have h2 : (n' : ℚ) < 0 := by exact_mod_cast hn'
      have h3 : (0 : ℚ) ≤ (n : ℚ) / d * (2 : ℚ) ^ e := by positivity
      have h4 : (n' : ℚ) / d' * (2 : ℚ) ^ e' < 0 := mul_neg_of_neg_of_pos (div_neg_of_neg_of_pos h2 hq') hp'
      linarith
    · have := round_mono (n := n.natAbs) (n' := n'.natAbs) hd hd' (e := e) (e' := e') (by
        rw [natAbs_of_not_neg hn, natAbs_of_not_neg hn']; exact h)
      simp only [hn, hn', decide_false, Bool.false_eq_true, if_false]
      omega

/-! ## Operations -/

theorem isInf_false {a : Dbl} : a.isInf = false ↔ a.Finite := by
  simp [isInf, Finite]

theorem isInf_true {a : Dbl} : a.isInf = true ↔ ¬ a.Finite := by
  simp [isInf, Finite]

theorem expo_ge (c : Nat) : -1074 ≤ expo c := (codeOf_mant c).2.1

/-- the exact sum, before rounding -/
theorem add_eq {a b : Dbl} (ha : a.Finite) (hb : b.Finite) : ∃ (n : Int) (e : Int), -1074 ≤ e ∧
    add a b = roundInt n 1 e ∧ (n : ℚ) / (1 : Nat) * (2 : ℚ) ^ e = a.value + b.value := by
  refine ⟨a.sig * 2 ^ (expo a.code.natAbs - min (expo a.code.natAbs) (expo b.code.natAbs)).toNat
      + b.sig * 2 ^ (expo b.code.natAbs - min (expo a.code.natAbs) (expo b.code.natAbs)).toNat,
    min (expo a.code.natAbs) (expo b.code.natAbs), ?_, ?_, ?_⟩
  rotate_left
  · unfold add
    rw [isInf_false.2 ha, isInf_false.2 hb]
    rfl
  · rw [value_eq_sig, value_eq_sig]
    have key : ∀ (x m : Int), m ≤ x → (2 : ℚ) ^ x = (2 : ℚ) ^ (x - m).toNat * (2 : ℚ) ^ m := by
      intro x m h
      rw [← zpow_natCast, ← zpow_add₀ (by norm_num)]
      congr 1; omega
    rw [key (expo a.code.natAbs) _ (Int.min_le_left _ (expo b.code.natAbs)),
      key (expo b.code.natAbs) _ (Int.min_le_right (expo a.code.natAbs) _)]
    push_cast
    ring
  · have h1 := expo_ge a.code.natAbs
    have h2 := expo_ge b.code.natAbs
    omega

theorem finite_of_add {a b : Dbl} (h : (add a b).Finite) : a.Finite ∧ b.Finite := by
  by_cases ha : a.Finite
  · by_cases hb : b.Finite
    · exact ⟨ha, hb⟩
    · unfold add at h
      rw [if_neg (by rw [isInf_false.2 ha]; decide), if_pos (isInf_true.2 hb)] at h
      exact absurd h hb
  · unfold add at h
    rw [if_pos (isInf_true.2 ha)] at h
    exact absurd h ha

theorem zero_add (a : Dbl) : add ⟨0⟩ a = a := by
  have h0 : (⟨0⟩ : Dbl).Finite := by decide
  by_cases ha : a.Finite
  · obtain ⟨n, e, _, h1, h2⟩ := add_eq h0 ha
    rw [h1]
    exact roundInt_exact (by omega) ha (by rw [h2, value_zero, _root_.zero_add])
  · unfold add
    rw [if_neg (by rw [isInf_false.2 h0]; decide)]
    exact if_pos (isInf_true.2 ha)

theorem roundInt_congr {n n' : Int} {e e' : Int}
    (h : (n : ℚ) / (1 : Nat) * (2 : ℚ) ^ e = (n' : ℚ) / (1 : Nat) * (2 : ℚ) ^ e') : roundInt n 1 e = roundInt n' 1 e' := by
  have l1 := roundInt_mono (d := 1) (d' := 1) (by omega) (by omega) h.le
  have l2 := roundInt_mono (d := 1) (d' := 1) (by omega) (by omega) h.ge
  generalize roundInt n 1 e = x at l1 l2 ⊢
  generalize roundInt n' 1 e' = y at l1 l2 ⊢
  cases x; cases y; simp at *; omega

theorem add_inf_left {a : Dbl} (b : Dbl) (ha : ¬ a.Finite) : add a b = a := by
  unfold add
  exact if_pos (isInf_true.2 ha)

theorem add_inf_right {a b : Dbl} (ha : a.Finite) (hb : ¬ b.Finite) : add a b = b := by
  unfold add
  rw [if_neg (by rw [isInf_false.2 ha]; decide)]
  exact if_pos (isInf_true.2 hb)

theorem add_comm {a b : Dbl} (h : a.Finite ∨ b.Finite) : add a b = add b a := by
  by_cases ha : a.Finite
  · by_cases hb : b.Finite
    · obtain ⟨n, e, _, h1, h2⟩ := add_eq ha hb
      obtain ⟨n', e', _, h1', h2'⟩ := add_eq hb ha
      rw [h1, h1']
      exact roundInt_congr (by rw [h2, h2', _root_.add_comm])
    · rw [add_inf_right ha hb, add_inf_left a hb]
  · have hb := h.resolve_left ha
    rw [add_inf_right hb ha, add_inf_left b ha]

/-- adding respects the order -/
theorem add_mono {a b c : Dbl} (ha : a.Finite) (hb : b.Finite) (hc : c.Finite) (h : a.code ≤ b.code) :
    (add a c).code ≤ (add b c).code := by
  obtain ⟨n, e, _, h1, h2⟩ := add_eq ha hc
  obtain ⟨n', e', _, h1', h2'⟩ := add_eq hb hc
  rw [h1, h1']
  refine roundInt_mono (by omega) (by omega) ?_
  rw [h2, h2']
  have := value_le.2 h
  linarith

/-- adding something not negative does not make smaller -/
theorem le_add {a b : Dbl} (hb : 0 ≤ b.code) : a.code ≤ (add a b).code := by
  by_cases ha : a.Finite
  · by_cases hbf : b.Finite
    · obtain ⟨n, e, _, h1, h2⟩ := add_eq ha hbf
      rw [h1]
      refine le_roundInt (by omega) ha ?_
      rw [h2]
      have : (⟨0⟩ : Dbl).value ≤ b.value := value_le.2 hb
      rw [value_zero] at this
      linarith
    · rw [add_inf_right ha hbf]
      unfold Finite at ha hbf
      omega
  · rw [add_inf_left _ ha]

theorem neg_signed (b : Bool) (c : Nat) : neg (signed b c) = signed (!b) c := by
  unfold neg signed; cases b <;> simp

theorem mant_comm (a b : Dbl) : mul a b = mul b a := by
  unfold mul
  have h1 : (a.code = 0 ∨ b.code = 0) ↔ (b.code = 0 ∨ a.code = 0) := or_comm
  have h2 : negative a b = negative b a := by
    unfold negative; cases decide (a.code < 0) <;> cases decide (b.code < 0) <;> rfl
  rw [Bool.or_comm, h2, Nat.mul_comm, Int.add_comm]
  simp only [h1]

/-- the square of a number and of its opposite -/
theorem mul_neg_self (a : Dbl) : mul (neg a) (neg a) = mul a a := by
  have e1 : (neg a).code.natAbs = a.code.natAbs := by simp [neg]
  have e2 : (neg a).isInf = a.isInf := by simp [isInf, e1]
  have e3 : negative (neg a) (neg a) = negative a a := by simp [negative]
  have e4 : (neg a).code = 0 ↔ a.code = 0 := by simp [neg]
  unfold mul
  rw [e1, e2, e3]
  simp only [e4]

theorem neg_roundInt (n : Int) (d : Nat) (e : Int) : neg (roundInt n d e) = roundInt (-n) d e := by
  have := roundInt_neg n d e
  unfold neg
  rw [← this]

theorem neg_neg (a : Dbl) : neg (neg a) = a := by simp [neg]

theorem finite_neg {a : Dbl} : (neg a).Finite ↔ a.Finite := by simp [Finite, neg]

theorem mul_inf_self {a b : Dbl} (ha : ¬ a.Finite) (hb : ¬ b.Finite) : mul a a = mul b b := by
  have hz : ∀ x : Dbl, ¬ x.Finite → mul x x = signed false infC := by
    intro x hx
    have h0 : ¬ (x.code = 0 ∨ x.code = 0) := by
      unfold Finite at hx
      have : 0 < infC := by decide
      omega
    unfold mul
    rw [if_neg h0, isInf_true.2 hx]
    simp [negative]
  rw [hz a ha, hz b hb]

theorem sub_sq (a b : Dbl) :
    mul (add a (neg b)) (add a (neg b)) = mul (add b (neg a)) (add b (neg a)) := by
  by_cases ha : a.Finite
  · by_cases hb : b.Finite
    · have : add a (neg b) = neg (add b (neg a)) := by
        obtain ⟨n, e, he, h1, h2⟩ := add_eq ha (finite_neg.2 hb)
        obtain ⟨n', e', he', h1', h2'⟩ := add_eq hb (finite_neg.2 ha)
        rw [h1, h1', neg_roundInt]
        have hv : (n : ℚ) / (1 : Nat) * (2 : ℚ) ^ e = ((-n' : Int) : ℚ) / (1 : Nat) * (2 : ℚ) ^ e' := by
          push_cast at h2 h2' ⊢
          rw [h2, neg_div, neg_mul, h2', value_neg, value_neg]
          ring
        exact roundInt_congr hv
      rw [this, mul_neg_self]
    · have e1 : add a (neg b) = neg b := add_inf_right ha (by rwa [finite_neg])
      have e2 : add b (neg a) = b := add_inf_left _ hb
      rw [e1, e2, mul_neg_self]
  · have e1 : add a (neg b) = a := add_inf_left _ ha
    rw [e1]
    by_cases hb : b.Finite
    · have e2 : add b (neg a) = neg a := add_inf_right hb (by rwa [finite_neg])
      rw [e2, mul_neg_self]
    · have e2 : add b (neg a) = b := add_inf_left _ hb
      rw [e2]
      exact mul_inf_self ha hb

end Dbl

/-- doubles: squares of differences and products do not depend on the order -/
theorem dbl_symm : SymmArith Dbl where
  sq := Dbl.sub_sq
  mul := Dbl.mant_comm

/-- doubles: sums of numbers that are not negative -/
theorem dbl_growing : GrowingAdd Dbl Dbl.Finite where
  zeroAdd a := by
    show Dbl.add (Dbl.roundInt (0 : Nat) 1 0) a = a
    have : Dbl.roundInt (0 : Nat) 1 0 = ⟨0⟩ := by decide
    rw [this, Dbl.zero_add]
  left a b h := by
    have e : (Num.ofNat 0 : Dbl).code = 0 := by decide
    simp only [Num.lt, decide_eq_false_iff_not, e] at h ⊢
    exact Int.not_lt.2 (Dbl.le_add (by omega))
  right a b hb h := by
    have e : (Num.ofNat 0 : Dbl).code = 0 := by decide
    simp only [Num.lt, decide_eq_false_iff_not, e] at h ⊢
    show ¬ (Dbl.add a b).code < b.code
    rw [Dbl.add_comm (Or.inr hb)]
    exact Int.not_lt.2 (Dbl.le_add (by omega))
  pos a b ha hb := by
    have e : (Num.ofNat 0 : Dbl).code = 0 := by decide
    simp only [Num.lt, decide_eq_false_iff_not, decide_eq_true_eq, e] at ha hb ⊢
    have := Dbl.le_add (a := a) (b := b) (by omega)
    exact lt_of_lt_of_le ha this

/-- doubles: the relative error of a sum is at most `2 ^ -53` -/
theorem dbl_rounded : RoundedAdd Dbl Dbl.value Dbl.Finite ((2 : ℚ) ^ (-53 : Int)) where
  nonneg := by positivity
  zero := by
    show (Dbl.roundInt (0 : Nat) 1 0).value = 0
    have : Dbl.roundInt (0 : Nat) 1 0 = ⟨0⟩ := by decide
    rw [this, Dbl.value_zero]
  zeroAdd a := by
    show Dbl.add (Dbl.roundInt (0 : Nat) 1 0) a = a
    have : Dbl.roundInt (0 : Nat) 1 0 = ⟨0⟩ := by decide
    rw [this, Dbl.zero_add]
  finite _ _ := Dbl.finite_of_add
  add a b h := by
    obtain ⟨ha, hb⟩ := Dbl.finite_of_add h
    obtain ⟨n, e, he, h1, h2⟩ := Dbl.add_eq ha hb
    show |(Dbl.add a b).value - _| ≤ _
    have hf : (Dbl.roundInt n 1 e).Finite := h1 ▸ h
    rw [h1, ← h2]
    exact Dbl.roundInt_error (by omega) hf (Or.inl ⟨rfl, he⟩)

namespace Dbl
/-! ## Correct rounding -/

theorem signed_round (b : Bool) (n d : Nat) (e : Int) :
    signed b (round n d e) = roundInt (if b then -(n : Int) else n) d e := by
  unfold roundInt
  cases b
  · have h : ¬ ((n : Int) < 0) := by omega
    simp [h]
  · by_cases hn : n = 0
    · subst hn; simp [round, signed]
    · simp only [if_true, show -(n : Int) < 0 by omega, decide_true, Int.natAbs_neg, Int.natAbs_natCast]

theorem mant_pos {a : Dbl} (h : a.code ≠ 0) : 0 < mant a.code.natAbs := by
  unfold mant; split <;> omega

/-- sign of a product -/
theorem sig_eq (a : Dbl) : a.sig = (if a.code < 0 then -1 else 1) * (mant a.code.natAbs : Int) := by
  unfold sig; split <;> simp

/-- the exact product, before rounding -/
theorem mul_eq {a b : Dbl} (ha : a.Finite) (hb : b.Finite) : ∃ (n e : Int), mul a b = roundInt n 1 e ∧
    (n : ℚ) / (1 : Nat) * (2 : ℚ) ^ e = a.value * b.value := by
  by_cases h0 : a.code = 0 ∨ b.code = 0
  · refine ⟨0, 0, ?_, ?_⟩
    · unfold mul
      rw [if_pos h0]
      decide
    · rcases h0 with h | h
      · have : a.value = 0 := by simp [value, h, valueN_zero]
        rw [this]; simp
      · have : b.value = 0 := by simp [value, h, valueN_zero]
        rw [this]; simp
  · refine ⟨if negative a b then -((mant a.code.natAbs * mant b.code.natAbs : Nat) : Int)
        else ((mant a.code.natAbs * mant b.code.natAbs : Nat) : Int), expo a.code.natAbs + expo b.code.natAbs, ?_, ?_⟩
    · unfold mul
      rw [if_neg h0, if_neg (by rw [isInf_false.2 ha, isInf_false.2 hb]; decide), signed_round]
    · rw [value_eq_sig, value_eq_sig, sig_eq, sig_eq, zpow_add₀ (by norm_num)]
      unfold negative
      by_cases h1 : a.code < 0 <;> by_cases h2 : b.code < 0 <;> simp [h1, h2] <;> ring

/-- the exact quotient, before rounding -/
theorem div_eq {a b : Dbl} (ha : a.Finite) (hb : b.Finite) (h0 : b.code ≠ 0) : ∃ (n : Int) (d : Nat) (e : Int), 0 < d ∧
    div a b = roundInt n d e ∧ (n : ℚ) / d * (2 : ℚ) ^ e = a.value / b.value := by
  by_cases ha0 : a.code = 0
  · refine ⟨0, 1, 0, by omega, ?_, ?_⟩
    · unfold div
      rw [if_pos ha0]
      decide
    · have : a.value = 0 := by simp [value, ha0, valueN_zero]
      rw [this]; simp
  · refine ⟨if negative a b then -(mant a.code.natAbs : Int) else mant a.code.natAbs, mant b.code.natAbs,
      expo a.code.natAbs - expo b.code.natAbs, mant_pos h0, ?_, ?_⟩
    · unfold div
      rw [if_neg ha0, if_neg (by rw [isInf_false.2 ha]; simpa using h0), if_neg (by rw [isInf_false.2 hb]; decide),
        signed_round]
    · have hm : (mant b.code.natAbs : ℚ) ≠ 0 := by exact_mod_cast (mant_pos h0).ne'
      have hz : (2 : ℚ) ^ expo b.code.natAbs ≠ 0 := by positivity
      rw [value_eq_sig, value_eq_sig, sig_eq, sig_eq, zpow_sub₀ (by norm_num)]
      unfold negative
      by_cases h1 : a.code < 0 <;> by_cases h2 : b.code < 0 <;> simp [h1, h2] <;> field_simp

end Dbl
end CoMMA
