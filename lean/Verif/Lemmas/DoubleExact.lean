import Verif.Lemmas.Rounding
/-! # Sums of doubles that need no rounding -/

namespace CoMMA

namespace Dbl

/-- a number with at most 53 binary digits is a double -/
theorem representable {m : Nat} {e : Int} (he : -1074 ≤ e) (he2 : e ≤ 970) (hm : m ≤ 2 ^ 53) :
    ∃ c, (c < infC ∨ e = 970) ∧ valueN c = (m : ℚ) * (2 : ℚ) ^ e := by
  obtain ⟨k, hk⟩ : ∃ k : Nat, k = (e + 1074).toNat := ⟨_, rfl⟩
  induction k generalizing m e with
  | zero =>
    have : e = -1074 := by omega
    subst this
    refine ⟨codeOf (-1074) m, Or.inl ?_, valueN_codeOf he hm (Or.inl rfl)⟩
    rw [codeOf_eq he]
    unfold infC; omega
  | succ k ih =>
    by_cases h52 : 2 ^ 52 ≤ m
    · refine ⟨codeOf e m, ?_, valueN_codeOf he hm (Or.inr h52)⟩
      rw [codeOf_eq he]
      unfold infC; omega
    · obtain ⟨c, h1, h2⟩ := ih (m := 2 * m) (e := e - 1) (by omega) (by omega) (by omega) (by omega)
      refine ⟨c, Or.inl (by omega), ?_⟩
      rw [h2, zpow_sub₀ (by norm_num)]
      push_cast
      field_simp

/-- as above, with a sign -/
theorem representableInt {m : Int} {e : Int} (he : -1074 ≤ e) (he2 : e < 970) (hm : |m| ≤ 2 ^ 53) :
    ∃ b : Dbl, b.Finite ∧ b.value = (m : ℚ) * (2 : ℚ) ^ e := by
  obtain ⟨c, h1, h2⟩ := representable (m := m.natAbs) he he2.le (by rw [Int.abs_eq_natAbs] at hm; omega)
  refine ⟨signed (decide (m < 0)) c, ?_, ?_⟩
  · unfold Finite; rw [natAbs_signed]; omega
  · rw [value_signed, h2]
    by_cases h : m < 0
    · rw [natAbs_of_neg h]; simp [h]
    · rw [natAbs_of_not_neg h]; simp [h]

/-- an exact sum -/
theorem add_exact {a b : Dbl} {m k e : Int} (he : -1074 ≤ e) (he2 : e < 970) (ha : a.Finite) (hb : b.Finite)
    (hav : a.value = (m : ℚ) * (2 : ℚ) ^ e) (hbv : b.value = (k : ℚ) * (2 : ℚ) ^ e) (hm : |m + k| ≤ 2 ^ 53) :
    (add a b).Finite ∧ (add a b).value = ((m + k : Int) : ℚ) * (2 : ℚ) ^ e := by
  obtain ⟨n, e', _, h1, h2⟩ := add_eq ha hb
  obtain ⟨c, h3, h4⟩ := representableInt he he2 hm
  have : roundInt n 1 e' = c := roundInt_exact (by omega) h3 (by rw [h2, h4, hav, hbv]; push_cast; ring)
  rw [h1, this]
  exact ⟨h3, h4⟩

end Dbl

/-- a finite multiple of `2 ^ e` -/
def Multiple (e : Int) (a : Dbl) : Prop := a.Finite ∧ ∃ m : Int, a.value = (m : ℚ) * (2 : ℚ) ^ e

theorem foldl_exact {e : Int} (he : -1074 ≤ e) (he2 : e < 970) (l : List Dbl) : ∀ x : Dbl, Multiple e x →
    (∀ y ∈ l, Multiple e y) → |x.value| + (l.map (fun a => |a.value|)).sum ≤ (2 : ℚ) ^ 53 * (2 : ℚ) ^ e →
    Multiple e (l.foldl Num.add x) ∧ (l.foldl Num.add x).value = x.value + (l.map Dbl.value).sum := by
  have hp : (0 : ℚ) < (2 : ℚ) ^ e := by positivity
  induction l with
  | nil => intro x hx _ _; simpa using hx
  | cons a l ih =>
    intro x hx hl hs
    obtain ⟨h1, m, h2⟩ := hx
    obtain ⟨h3, k, h4⟩ := hl a (by simp)
    simp only [List.map_cons, List.sum_cons] at hs ⊢
    have hrest : 0 ≤ (l.map (fun a => |a.value|)).sum := by
      refine List.sum_nonneg ?_
      intro y hy
      obtain ⟨i, _, rfl⟩ := List.mem_map.1 hy
      exact abs_nonneg _
    have habs : |x.value + a.value| ≤ |x.value| + |a.value| := abs_add_le _ _
    have hmk : |m + k| ≤ 2 ^ 53 := by
      have h5 : |x.value + a.value| ≤ (2 : ℚ) ^ 53 * (2 : ℚ) ^ e := by linarith
      rw [h2, h4, ← add_mul, abs_mul, abs_of_pos hp] at h5
      have h6 := le_of_mul_le_mul_right h5 hp
      exact_mod_cast h6
    obtain ⟨h7, h8⟩ := Dbl.add_exact he he2 h1 h3 h2 h4 hmk
    have h9 : (Num.add x a).value = x.value + a.value := by
      show (Dbl.add x a).value = _
      rw [h8, h2, h4]; push_cast; ring
    obtain ⟨h10, h11⟩ := ih (Num.add x a) ⟨h7, m + k, h8⟩ (fun y hy => hl y (by simp [hy])) (by rw [h9]; linarith)
    rw [List.foldl_cons]
    exact ⟨h10, by rw [h11, h9]; ring⟩

theorem sumW_exact {e : Int} (he : -1074 ≤ e) (he2 : e < 970) {x : List Dbl} {l : List Nat} (hx : ∀ y ∈ x, Multiple e y)
    (hs : exactSize Dbl.value x l ≤ (2 : ℚ) ^ 53 * (2 : ℚ) ^ e) :
    Multiple e (sumW (entriesAt x l)) ∧ (sumW (entriesAt x l)).value = exactSum Dbl.value x l := by
  have h0 : Multiple e (Num.ofNat 0 : Dbl) := ⟨by decide, 0, by
    show (⟨0⟩ : Dbl).value = _
    rw [Dbl.value_zero]; simp⟩
  have hz : (Num.ofNat 0 : Dbl).value = 0 := Dbl.value_zero
  obtain ⟨h1, h2⟩ := foldl_exact he he2 (entriesAt x l) (Num.ofNat 0) h0 (fun y hy => by
    obtain ⟨i, _, hi⟩ := List.mem_filterMap.1 hy
    exact hx y (List.mem_of_getElem? hi)) (by rw [hz]; simpa [exactSize] using hs)
  refine ⟨h1, ?_⟩
  unfold sumW
  rw [h2, hz, zero_add]; rfl

end CoMMA
