import Verif.Lemmas.RowRun
import Verif.Spec.RowGroups
/-! # The row made of the groups of a row -/

namespace CoMMA.Row

theorem upDiv_le {n k x : Nat} (hk : 0 < k) : upDiv n k ≤ x ↔ n ≤ k * x := by
  unfold upDiv
  rw [← Nat.lt_succ_iff, Nat.div_lt_iff_lt_mul hk, Nat.succ_mul, Nat.mul_comm x k]
  omega

theorem upDiv_upDiv {n k l : Nat} (hk : 0 < k) (hl : 0 < l) : upDiv (upDiv n k) l = upDiv n (k * l) := by
  have key : ∀ x, upDiv (upDiv n k) l ≤ x ↔ upDiv n (k * l) ≤ x := by
    intro x
    rw [upDiv_le hl, upDiv_le hk, upDiv_le (Nat.mul_pos hk hl), Nat.mul_assoc]
  exact Nat.le_antisymm ((key _).2 (Nat.le_refl _)) ((key _).1 (Nat.le_refl _))

theorem upDiv_one (n : Nat) : upDiv n 1 = n := by simp [upDiv]

/-- place of a group in the row of the groups -/
def place (m n t p : Nat) : Nat := if n % m = 0 then p / m else rowGroup m (n % m) t p

theorem succ_div (m u : Nat) : (u + 1) / m = u / m ∨ (u + 1) / m = u / m + 1 := by
  by_cases h : m ∣ u + 1
  · exact Or.inr (by rw [Nat.succ_div_of_dvd h])
  · exact Or.inl (by rw [Nat.succ_div_of_not_dvd h])

/-! ### Groups, one of which has `r` cells -/

theorem group_zero {m r t : Nat} (hm : 0 < m) (hr : 0 < r) : rowGroup m r t 0 = 0 := by
  unfold rowGroup
  split_ifs with h2 h3
  · simp
  · rcases Nat.eq_zero_or_pos t with h | h
    · exact h
    · exact absurd (Nat.mul_pos h hm) h2
  · omega

theorem group_succ {m r t p : Nat} (hm : 0 < m) (hr : 0 < r) :
    rowGroup m r t (p + 1) = rowGroup m r t p ∨ rowGroup m r t (p + 1) = rowGroup m r t p + 1 := by
  unfold rowGroup
  by_cases h1 : p + 1 < t * m
  · rw [if_pos h1, if_pos (by omega)]
    exact succ_div m p
  · rw [if_neg h1]
    by_cases h2 : p < t * m
    · rw [if_pos h2, if_pos (by omega)]
      have e : p / m + 1 = t := by
        have h3 : (p + 1) / m = t := by
          rw [show p + 1 = t * m by omega, Nat.mul_div_cancel _ hm]
        rcases succ_div m p with h | h
        · exfalso
          have h4 : p / m < t := (Nat.div_lt_iff_lt_mul hm).2 h2
          omega
        · omega
      omega
    · rw [if_neg h2]
      by_cases h3 : p + 1 < t * m + r
      · rw [if_pos h3, if_pos (by omega)]
        exact Or.inl rfl
      · rw [if_neg h3]
        by_cases h4 : p < t * m + r
        · rw [if_pos h4, show p + 1 - (t * m + r) = 0 by omega]
          simp
        · rw [if_neg h4, show p + 1 - (t * m + r) = (p - (t * m + r)) + 1 by omega]
          rcases succ_div m (p - (t * m + r)) with h | h <;> omega

/-- between cells `m * e` places apart there are `e` ends of groups -/
theorem group_far {m r t : Nat} (hm : 0 < m) (hrw : r ≤ m) (p e : Nat) : rowGroup m r t p + e ≤ rowGroup m r t (p + m * e) := by
  have one : ∀ p, rowGroup m r t p + 1 ≤ rowGroup m r t (p + m) := by
    intro p
    unfold rowGroup
    by_cases h1 : p + m < t * m
    · rw [if_pos h1, if_pos (by omega), Nat.add_div_right _ hm]
    · rw [if_neg h1]
      by_cases h2 : p < t * m
      · rw [if_pos h2]
        have h4 : p / m < t := (Nat.div_lt_iff_lt_mul hm).2 h2
        generalize p / m = u at h4 ⊢
        generalize (p + m - (t * m + r)) / m = v
        split_ifs <;> omega
      · rw [if_neg h2, if_neg (show ¬ p + m < t * m + r by omega)]
        by_cases h4 : p < t * m + r
        · rw [if_pos h4]
          generalize (p + m - (t * m + r)) / m = v
          omega
        · rw [if_neg h4, show p + m - (t * m + r) = (p - (t * m + r)) + m by omega, Nat.add_div_right _ hm]
          omega
  induction e with
  | zero => simp
  | succ e ih =>
    have := one (p + m * e)
    rw [Nat.mul_succ, ← Nat.add_assoc p]
    omega

/-- the same when one group has a cell more -/
theorem group_far_one {m t : Nat} (hm : 0 < m) (p e : Nat) :
    rowGroup m (m + 1) t p + e ≤ rowGroup m (m + 1) t (p + (m * e + 1)) := by
  have bounds : ∀ p, rowGroup m (m + 1) t p ≤ p / m ∧ (p - 1) / m ≤ rowGroup m (m + 1) t p := by
    intro p
    have h0 : (p - 1) / m ≤ p / m := Nat.div_le_div_right (by omega)
    unfold rowGroup
    split_ifs with h1 h2
    · exact ⟨Nat.le_refl _, h0⟩
    · refine ⟨(Nat.le_div_iff_mul_le hm).2 (by omega), Nat.le_of_lt_succ ((Nat.div_lt_iff_lt_mul hm).2 ?_)⟩
      rw [Nat.succ_mul]
      omega
    · obtain ⟨d, hd⟩ := Nat.exists_eq_add_of_le (show t * m + (m + 1) ≤ p by omega)
      have h3 : (p - 1) / m = d / m + (t + 1) := by
        rw [show p - 1 = d + (t + 1) * m by rw [Nat.add_mul]; omega, Nat.add_mul_div_right _ _ hm]
      rw [show p - (t * m + (m + 1)) = d by omega]
      omega
  have h1 := (bounds p).1
  have h2 := (bounds (p + (m * e + 1))).2
  rw [show p + (m * e + 1) - 1 = p + m * e by omega, Nat.add_mul_div_left _ _ hm] at h2
  omega

/-- the last group -/
theorem group_last {m r t k : Nat} (hm : 0 < m) (hr : 0 < r) : rowGroup m r t (t * m + r + m * k - 1) = t + k := by
  unfold rowGroup
  rw [if_neg (by omega)]
  by_cases hk0 : k = 0
  · subst hk0
    rw [if_pos (by omega)]
    omega
  · have : m ≤ m * k := Nat.le_mul_of_pos_right _ (Nat.pos_of_ne_zero hk0)
    rw [if_neg (by omega)]
    have h1 : t * m + r + m * k - 1 - (t * m + r) = (m - 1) + m * (k - 1) := by
      rw [Nat.mul_sub, Nat.mul_one]
      omega
    rw [h1, Nat.add_mul_div_left _ _ hm, Nat.div_eq_of_lt (by omega)]
    omega

/-! ### Places -/

theorem place_zero {m n t : Nat} (hm : 0 < m) : place m n t 0 = 0 := by
  unfold place
  split_ifs with h
  · simp
  · exact group_zero hm (Nat.pos_of_ne_zero h)

theorem place_succ {m n t p : Nat} (hm : 0 < m) :
    place m n t (p + 1) = place m n t p ∨ place m n t (p + 1) = place m n t p + 1 := by
  unfold place
  split_ifs with h
  · exact succ_div m p
  · exact group_succ hm (Nat.pos_of_ne_zero h)

theorem place_far {m n t : Nat} (hm : 0 < m) (p e : Nat) : place m n t p + e ≤ place m n t (p + m * e) := by
  unfold place
  split_ifs with h
  · rw [Nat.add_mul_div_left _ _ hm]
  · exact group_far hm (Nat.le_of_lt (Nat.mod_lt _ hm)) p e

theorem place_far_one {m n t : Nat} (hm : 0 < m) (p e : Nat) : place m n t p + e ≤ place m n t (p + (m * e + 1)) := by
  have h1 := place_far (n := n) (t := t) hm p e
  have h2 := place_succ (n := n) (t := t) (p := p + m * e) hm
  rw [← Nat.add_assoc]
  omega

/-- the place of the last group -/
theorem place_last {m n t : Nat} (hm : 0 < m) (hn : 0 < n) (ht : t * m + n % m ≤ n) : place m n t (n - 1) + 1 = upDiv n m := by
  have hr : n % m < m := Nat.mod_lt _ hm
  have hdiv := Nat.div_add_mod n m
  have hup : n % m ≠ 0 → upDiv n m = n / m + 1 := by
    intro h
    unfold upDiv
    have h1 : n + m - 1 = (n % m - 1) + m * (n / m + 1) := by rw [Nat.mul_add]; omega
    rw [h1, Nat.add_mul_div_left _ _ hm, Nat.div_eq_of_lt (by omega)]
    omega
  have hup0 : n % m = 0 → upDiv n m = n / m := by
    intro h
    unfold upDiv
    have h1 : n + m - 1 = (m - 1) + m * (n / m) := by omega
    rw [h1, Nat.add_mul_div_left _ _ hm, Nat.div_eq_of_lt (by omega)]
    omega
  unfold place
  by_cases h0 : n % m = 0
  · rw [if_pos h0, hup0 h0]
    have hd : 0 < n / m := by
      rcases Nat.eq_zero_or_pos (n / m) with h | h
      · rw [h] at hdiv; omega
      · exact h
    have h1 : n - 1 = (m - 1) + m * (n / m - 1) := by
      rw [Nat.mul_sub, Nat.mul_one]
      have : m ≤ m * (n / m) := Nat.le_mul_of_pos_right _ hd
      omega
    rw [h1, Nat.add_mul_div_left _ _ hm, Nat.div_eq_of_lt (by omega)]
    omega
  · rw [if_neg h0, hup h0]
    have htd : t ≤ n / m := by
      have : t * m ≤ n / m * m := by rw [Nat.mul_comm (n / m)]; omega
      exact Nat.le_of_mul_le_mul_right this hm
    obtain ⟨k, hk⟩ := Nat.exists_eq_add_of_le htd
    have hn' : n = t * m + n % m + m * k := by
      have := hdiv
      rw [hk, Nat.mul_add, Nat.mul_comm m t] at this
      omega
    have hl := group_last (m := m) (r := n % m) (t := t) (k := k) hm (Nat.pos_of_ne_zero h0)
    rw [← hn'] at hl
    rw [hl, hk]

/-- the places of the groups tell them apart -/
theorem place_iff {m n t p q : Nat} (hm : 0 < m) :
    rowGroup m (n % m) t p = rowGroup m (n % m) t q ↔ place m n t p = place m n t q := by
  unfold place
  by_cases h0 : n % m = 0
  · rw [if_pos h0, if_pos h0, h0]
    have key : ∀ x, rowGroup m 0 t x = if x / m < t then x / m else x / m + 1 := by
      intro x
      unfold rowGroup
      by_cases h : x < t * m
      · rw [if_pos h, if_pos ((Nat.div_lt_iff_lt_mul hm).2 h)]
      · have h1 : ¬ x / m < t := fun h2 => h ((Nat.div_lt_iff_lt_mul hm).1 h2)
        rw [if_neg h, if_neg (by omega), if_neg h1]
        have h2 : x = (x - (t * m + 0)) + t * m := by omega
        have h3 : x / m = (x - (t * m + 0)) / m + t := by
          conv_lhs => rw [h2]
          rw [Nat.add_mul_div_right _ _ hm]
        omega
    rw [key, key]
    split_ifs <;> omega
  · rw [if_neg h0, if_neg h0]

end CoMMA.Row
