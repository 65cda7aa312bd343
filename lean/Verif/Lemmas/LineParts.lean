import Verif.Spec.LineParts
import Mathlib.Tactic.Ring
import Mathlib.Tactic.SplitIfs
/-! # Cutting parts of lines level after level -/

namespace CoMMA

variable {g : Nat → Option Nat} {n c k : Nat} {l : List Nat} {b : Nat → Nat}

theorem CutPart.below (h : CutPart g n c l k b) : ∀ s, s ≤ k → b (k - s) + c * s ≤ b k := by
  intro s
  induction s with
  | zero => intro _; simp
  | succ s ih =>
    intro hs
    have h1 := h.least (k - (s + 1)) (by omega)
    rw [show k - (s + 1) + 1 = k - s by omega] at h1
    have := ih (by omega)
    rw [Nat.mul_succ]
    omega

theorem CutPart.le (h : CutPart g n c l k b) {t : Nat} (ht : t ≤ k) : b t ≤ b k := by
  have := h.below (k - t) (by omega)
  rw [show k - (k - t) = t by omega] at this
  omega

theorem CutPart.lt (h : CutPart g n c l k b) (hc : 0 < c) {t : Nat} (ht : t < k) : b t < b k := by
  have h1 := h.below (k - t) (by omega)
  rw [show k - (k - t) = t by omega] at h1
  have : c * 1 ≤ c * (k - t) := Nat.mul_le_mul_left c (by omega)
  omega

/-- the same stretches, the line being read from its other end -/
theorem CutPart.reverse (h : CutPart g n c l k b) : CutPart g n c l.reverse k (fun t => l.length - b (k - t)) := by
  have hlast := h.last
  have hle : ∀ t, b (k - t) ≤ l.length := fun t => by
    have := h.le (t := k - t) (by omega)
    omega
  refine ⟨by rw [List.length_reverse]; exact Nat.sub_le _ _, fun t ht => ?_, fun t ht => ?_, ?_⟩
  · have h1 := h.least (k - (t + 1)) (by omega)
    rw [show k - (t + 1) + 1 = k - t by omega] at h1
    have := hle t
    show l.length - b (k - t) + c ≤ l.length - b (k - (t + 1))
    omega
  · have h1 := h.most (k - (t + 1)) (by omega)
    rw [show k - (t + 1) + 1 = k - t by omega] at h1
    have := hle t
    have := hle (t + 1)
    show l.length - b (k - (t + 1)) < l.length - b (k - t) + 2 * c
    omega
  · intro p x hp hp1 hp2 i hi
    have hpl := (List.getElem?_eq_some_iff.1 hp).1
    rw [List.length_reverse] at hpl
    rw [List.getElem?_reverse hpl] at hp
    simp only [Nat.sub_zero, Nat.sub_self] at hp1 hp2
    have h00 := h.le (t := 0) (by omega)
    rw [h.same _ x hp (by omega) (by omega) i hi]
    have key : ∀ t, ∀ r < l.length, (l.length - b (k - t) ≤ r ↔ ¬ b (k - t) ≤ l.length - 1 - r) := by
      intro t r hr
      have := hle t
      omega
    constructor
    · rintro ⟨q, hq, hs⟩
      have hql := (List.getElem?_eq_some_iff.1 hq).1
      refine ⟨l.length - 1 - q, ?_, fun t ht => ?_⟩
      · rw [List.getElem?_reverse (by omega), show l.length - 1 - (l.length - 1 - q) = q by omega]
        exact hq
      · show l.length - b (k - t) ≤ p ↔ l.length - b (k - t) ≤ l.length - 1 - q
        rw [key t p hpl, key t _ (by omega), show l.length - 1 - (l.length - 1 - q) = q by omega, hs (k - t) (by omega)]
    · rintro ⟨q, hq, hs⟩
      have hql := (List.getElem?_eq_some_iff.1 hq).1
      rw [List.length_reverse] at hql
      rw [List.getElem?_reverse hql] at hq
      refine ⟨l.length - 1 - q, hq, fun t ht => ?_⟩
      have e : l.length - b (k - (k - t)) ≤ p ↔ l.length - b (k - (k - t)) ≤ q := hs (k - t) (by omega)
      rw [key _ p hpl, key _ q hql, show k - (k - t) = t by omega] at e
      omega

/-- one more level: pairs of the cells of a line whose coarse line is cut -/
theorem PairedFront.cut {T N : Nat} {f m l' : List Nat} (hc : 0 < c) (h : PairedFront T f m l')
    (hf : f.length = n) (hN : ∀ j ∈ f, j < N) (hcut : CutPart g N c l' k b) :
    CutPart (fun i => (f[i]?).bind g) n (2 * c) m k (fun t => if b t = T / 2 then T else 2 * b t) := by
  obtain ⟨hT, hL, hg⟩ := h
  have hlast := hcut.last
  rw [hL] at hlast
  have hble : ∀ t ≤ k, b t ≤ T / 2 := fun t ht => (hcut.le ht).trans hlast
  have hblt : ∀ t < k, b t < T / 2 := fun t ht => lt_of_lt_of_le (hcut.lt hc ht) hlast
  have hdle : ∀ t ≤ k, (if b t = T / 2 then T else 2 * b t) ≤ T := by
    intro t ht
    have := hble t ht
    split_ifs <;> omega
  refine ⟨(hdle k (Nat.le_refl _)).trans hT, fun t ht => ?_, fun t ht => ?_, ?_⟩
  · have h1 := hcut.least t ht
    have h2 := hblt t ht
    have h3 := hble (t + 1) ht
    simp only [show b t ≠ T / 2 by omega, if_false]
    split_ifs <;> omega
  · have h1 := hcut.most t ht
    have h2 := hblt t ht
    have h3 := hble (t + 1) ht
    simp only [show b t ≠ T / 2 by omega, if_false]
    split_ifs <;> omega
  · intro p x hp hp1 hp2 i hi
    have hpT : p < T := lt_of_lt_of_le hp2 (hdle k (Nat.le_refl _))
    have hk0 : 0 < k := by
      rcases Nat.eq_zero_or_pos k with rfl | h
      · exact absurd hp2 (by simpa using hp1)
      · exact h
    have hT2 : 0 < T / 2 := by have := hblt 0 hk0; omega
    have hcutp : ∀ t ≤ k, ∀ q < T, ((if b t = T / 2 then T else 2 * b t) ≤ q ↔ b t ≤ groupAt T q) := by
      intro t ht q hq
      have := hble t ht
      unfold groupAt
      split_ifs <;> omega
    have hplace : ∀ q y : Nat, m[q]? = some y → q < T → ∃ j, f[y]? = some j ∧ l'[groupAt T q]? = some j := by
      intro q y hq hqT
      have hr : groupAt T q < l'.length := by
        unfold groupAt
        omega
      exact ⟨_, (hg _ _ (List.getElem?_eq_getElem hr) y).2 ⟨q, hqT, hq, rfl⟩, List.getElem?_eq_getElem hr⟩
    obtain ⟨j, hj1, hj2⟩ := hplace p x hp hpT
    obtain ⟨ji, hji⟩ : ∃ ji, f[i]? = some ji := ⟨_, List.getElem?_eq_getElem (by omega)⟩
    have hjiN : ji < N := hN ji (List.mem_of_getElem? hji)
    have hin1 : b 0 ≤ groupAt T p := (hcutp 0 (by omega) p hpT).1 hp1
    have hin2 : groupAt T p < b k := by
      have := (hcutp k (Nat.le_refl _) p hpT).not.1 (by simpa using hp2)
      omega
    show ((f[i]?).bind g = (f[x]?).bind g) ↔ _
    rw [hji, hj1, Option.bind_some, Option.bind_some, hcut.same _ j hj2 hin1 hin2 ji hjiN]
    constructor
    · rintro ⟨q', hq', hs⟩
      obtain ⟨q, hqT, hq, hqq⟩ := (hg q' ji hq' i).1 hji
      refine ⟨q, hq, fun t ht => ?_⟩
      show (if b t = T / 2 then T else 2 * b t) ≤ p ↔ (if b t = T / 2 then T else 2 * b t) ≤ q
      rw [hcutp t ht p hpT, hcutp t ht q hqT, hqq]
      exact hs t ht
    · rintro ⟨q, hq, hs⟩
      have hqT : q < T := by
        have e := (hs k (Nat.le_refl _)).not.1 (by simpa using hp2)
        have := hdle k (Nat.le_refl _)
        simp only [not_le] at e
        omega
      obtain ⟨j', h4, h5⟩ := hplace q i hq hqT
      rw [hji] at h4
      cases h4
      refine ⟨_, h5, fun t ht => ?_⟩
      rw [← hcutp t ht p hpT, ← hcutp t ht q hqT]
      exact hs t ht

/-- stretches of one cell -/
theorem CutPart.ones : CutPart some n 1 l l.length (fun t => t) where
  last := Nat.le_refl _
  least := fun t _ => Nat.le_refl _
  most := fun t _ => by omega
  same := by
    intro p x hp _ _ i _
    rw [Option.some.injEq]
    have hpl := (List.getElem?_eq_some_iff.1 hp).1
    constructor
    · rintro rfl
      exact ⟨p, hp, fun _ _ => Iff.rfl⟩
    · rintro ⟨q, hq, hs⟩
      have hql := (List.getElem?_eq_some_iff.1 hq).1
      have e1 := hs p (by omega)
      have e2 := hs q (by omega)
      have : p = q := by omega
      subst this
      rw [hp] at hq
      exact (Option.some.inj hq).symm

theorem takenCells_small {odd : Bool} {limit : Option Int} {len : Nat} (h : len < 2) : takenCells odd limit len / 2 = 0 := by
  unfold takenCells
  cases limit with
  | none => cases odd <;> simp <;> omega
  | some m =>
    cases odd <;> simp only [Bool.false_eq_true, if_false, if_true] <;> (split_ifs <;> omega)

theorem cellsLeft_zero (s : List (Bool × Option Int)) : cellsLeft s 0 = 0 := by
  induction s with
  | nil => rfl
  | cons x r ih =>
    unfold cellsLeft
    rw [takenCells_small (by omega), ih]

/-- a line of which cells are left has at least two cells, before a level -/
theorem two_of_left {x : Bool × Option Int} {r : List (Bool × Option Int)} {len : Nat} (h : 0 < cellsLeft (x :: r) len) : 2 ≤ len := by
  by_contra hlt
  unfold cellsLeft at h
  rw [takenCells_small (by omega), cellsLeft_zero] at h
  omega

end CoMMA
