import Verif.Spec.LineCuts
import Mathlib.Tactic.Ring
import Mathlib.Tactic.SplitIfs
/-! # Cutting lines level after level -/

namespace CoMMA

/-- stretches that are long enough, and as many as possible, are not too long -/
theorem cut_most {b : Nat → Nat} {L c : Nat} (h0 : b 0 = 0) (h1 : b (L / c) = L)
    (h2 : ∀ t < L / c, b t + c ≤ b (t + 1)) : ∀ t < L / c, b (t + 1) < b t + 2 * c := by
  intro t ht
  have hc : 0 < c := by
    rcases Nat.eq_zero_or_pos c with rfl | h
    · simp at ht
    · exact h
  have low : ∀ s, s ≤ L / c → c * s ≤ b s := by
    intro s
    induction s with
    | zero => intro _; simp
    | succ s ih =>
      intro hs
      have := h2 s (by omega)
      have := ih (by omega)
      rw [Nat.mul_succ]
      omega
  have high : ∀ s, t + 1 + s ≤ L / c → b (t + 1) + c * s ≤ b (t + 1 + s) := by
    intro s
    induction s with
    | zero => intro _; simp
    | succ s ih =>
      intro hs
      have := h2 (t + 1 + s) (by omega)
      have := ih (by omega)
      rw [Nat.mul_succ, ← Nat.add_assoc (t + 1) s 1]
      omega
  have e1 := low t (by omega)
  have e2 := high (L / c - (t + 1)) (by omega)
  rw [show t + 1 + (L / c - (t + 1)) = L / c by omega, h1] at e2
  have e3 : c * t + c * (L / c - (t + 1)) + c = c * (L / c) := by
    obtain ⟨k, hk⟩ : ∃ k, L / c = t + 1 + k := ⟨L / c - (t + 1), by omega⟩
    rw [hk, Nat.add_sub_cancel_left]
    ring
  have e4 := Nat.div_add_mod L c
  have e5 := Nat.mod_lt L hc
  omega

/-- the same stretches, the line being read from its other end -/
theorem CutInto.reverse {g : Nat → Option Nat} {n c : Nat} {l : List Nat} {b : Nat → Nat} (hc : 0 < c) (h : CutInto g n c l b) :
    CutInto g n c l.reverse (fun t => l.length - b (l.length / c - t)) := by
  have hmono : ∀ s, s ≤ l.length / c → b (l.length / c - s) ≤ l.length := by
    intro s
    induction s with
    | zero => intro _; rw [Nat.sub_zero, h.last]
    | succ s ih =>
      intro hs
      have h1 := h.least (l.length / c - (s + 1)) (by omega)
      rw [show l.length / c - (s + 1) + 1 = l.length / c - s by omega] at h1
      have := ih (by omega)
      omega
  have hfirst : (fun t => l.length - b (l.length / c - t)) 0 = 0 := by simp [h.last]
  have hlast : (fun t => l.length - b (l.length / c - t)) (l.reverse.length / c) = l.reverse.length := by simp [h.first]
  have hleast : ∀ t < l.reverse.length / c, (fun t => l.length - b (l.length / c - t)) t + c ≤ (fun t => l.length - b (l.length / c - t)) (t + 1) := by
    intro t ht
    rw [List.length_reverse] at ht
    have h1 := h.least (l.length / c - (t + 1)) (by omega)
    rw [show l.length / c - (t + 1) + 1 = l.length / c - t by omega] at h1
    have := hmono t (by omega)
    show l.length - b (l.length / c - t) + c ≤ l.length - b (l.length / c - (t + 1))
    omega
  refine ⟨hfirst, hlast, hleast, ?_, ?_⟩
  · have := cut_most (b := fun t => l.length - b (l.length / c - t)) (L := l.reverse.length) (c := c) hfirst hlast hleast
    exact this
  · intro p x hp i hi
    have hpl := (List.getElem?_eq_some_iff.1 hp).1
    rw [List.length_reverse] at hpl
    rw [List.getElem?_reverse hpl] at hp
    rw [h.same _ x hp i hi, List.length_reverse]
    have key : ∀ t ≤ l.length / c, ∀ r < l.length, (l.length - b (l.length / c - t) ≤ r ↔ ¬ b (l.length / c - t) ≤ l.length - 1 - r) := by
      intro t ht r hr
      have := hmono t ht
      omega
    constructor
    · rintro ⟨q, hq, hs⟩
      have hql := (List.getElem?_eq_some_iff.1 hq).1
      refine ⟨l.length - 1 - q, ?_, fun t ht => ?_⟩
      · rw [List.getElem?_reverse (by omega), show l.length - 1 - (l.length - 1 - q) = q by omega]
        exact hq
      · rw [key t ht p hpl, key t ht _ (by omega), show l.length - 1 - (l.length - 1 - q) = q by omega,
          hs (l.length / c - t) (by omega)]
    · rintro ⟨q, hq, hs⟩
      have hql := (List.getElem?_eq_some_iff.1 hq).1
      rw [List.length_reverse] at hql
      rw [List.getElem?_reverse hql] at hq
      refine ⟨l.length - 1 - q, hq, fun t ht => ?_⟩
      have e := hs (l.length / c - t) (by omega)
      rw [key _ (by omega) p hpl, key _ (by omega) q hql, show l.length / c - (l.length / c - t) = t by omega] at e
      omega

/-- one more level: pairs of the cells of a line whose coarse line is cut -/
theorem PairedUp.cut {f l l' : List Nat} {n N c : Nat} {g : Nat → Option Nat} {b : Nat → Nat} (hc : 0 < c) (h : PairedUp f l l')
    (hf : f.length = n) (hN : ∀ k ∈ f, k < N) (h2 : 2 ≤ l.length) (hcut : CutInto g N c l' b) (hb : 0 < l'.length / c) :
    ∃ b', CutInto (fun i => (f[i]?).bind g) n (2 * c) l b' := by
  obtain ⟨hL, m, hm, hg⟩ := h
  have hmlen : m.length = l.length := by rcases hm with rfl | rfl <;> simp
  suffices hmm : ∃ b', CutInto (fun i => (f[i]?).bind g) n (2 * c) m b' by
    rcases hm with rfl | rfl
    · exact hmm
    · obtain ⟨b', hb'⟩ := hmm
      have := hb'.reverse (by omega)
      rw [List.reverse_reverse] at this
      exact ⟨_, this⟩
  have hM : m.length / (2 * c) = l'.length / c := by rw [hmlen, hL, Nat.div_div_eq_div_mul]
  have hbl : ∀ s, s ≤ l'.length / c → b (l'.length / c - s) + c * s ≤ l'.length := by
    intro s
    induction s with
    | zero => intro _; rw [Nat.sub_zero, hcut.last]; omega
    | succ s ih =>
      intro hs
      have h1 := hcut.least (l'.length / c - (s + 1)) (by omega)
      rw [show l'.length / c - (s + 1) + 1 = l'.length / c - s by omega] at h1
      have := ih (by omega)
      rw [Nat.mul_succ]
      omega
  have hblt : ∀ t < l'.length / c, b t + c ≤ l'.length := by
    intro t ht
    have h1 := hbl (l'.length / c - t) (by omega)
    rw [show l'.length / c - (l'.length / c - t) = t by omega] at h1
    have : c * 1 ≤ c * (l'.length / c - t) := Nat.mul_le_mul_left c (by omega)
    omega
  have hfirst : (fun t => if t = l'.length / c then m.length else 2 * b t) 0 = 0 := by
    simp only [show (0 : Nat) ≠ l'.length / c by omega, if_false, hcut.first]
  have hlast : (fun t => if t = l'.length / c then m.length else 2 * b t) (m.length / (2 * c)) = m.length := by simp [hM]
  have hleast : ∀ t < m.length / (2 * c), (fun t => if t = l'.length / c then m.length else 2 * b t) t + 2 * c ≤
      (fun t => if t = l'.length / c then m.length else 2 * b t) (t + 1) := by
    intro t ht
    rw [hM] at ht
    have h1 := hcut.least t ht
    simp only [show t ≠ l'.length / c by omega, if_false]
    split_ifs with h3
    · rw [h3, hcut.last] at h1
      omega
    · omega
  refine ⟨fun t => if t = l'.length / c then m.length else 2 * b t, hfirst, hlast, hleast, cut_most hfirst hlast hleast, ?_⟩
  -- the coarse cell of a place
  have hplace : ∀ p x : Nat, m[p]? = some x → ∃ k, f[x]? = some k ∧ l'[min (p / 2) (l.length / 2 - 1)]? = some k := by
    intro p x hp
    have hpl := (List.getElem?_eq_some_iff.1 hp).1
    have hr : min (p / 2) (l.length / 2 - 1) < l'.length := by omega
    exact ⟨_, (hg _ _ (List.getElem?_eq_getElem hr) x).2 ⟨p, hp, rfl⟩, List.getElem?_eq_getElem hr⟩
  have hcutp : ∀ t ≤ l'.length / c, ∀ p < m.length, ((if t = l'.length / c then m.length else 2 * b t) ≤ p ↔
      b t ≤ min (p / 2) (l.length / 2 - 1)) := by
    intro t ht p hp
    split_ifs with h3
    · rw [h3, hcut.last]
      omega
    · have := hblt t (by omega)
      omega
  intro p x hp i hi
  have hpl := (List.getElem?_eq_some_iff.1 hp).1
  obtain ⟨k, hk1, hk2⟩ := hplace p x hp
  obtain ⟨ki, hki⟩ : ∃ ki, f[i]? = some ki := ⟨_, List.getElem?_eq_getElem (by omega)⟩
  have hkiN : ki < N := hN ki (List.mem_of_getElem? hki)
  show ((f[i]?).bind g = (f[x]?).bind g) ↔ _
  rw [hki, hk1, Option.bind_some, Option.bind_some, hcut.same _ k hk2 ki hkiN, hM]
  constructor
  · rintro ⟨q', hq', hs⟩
    obtain ⟨q, hq, hqq⟩ := (hg q' ki hq' i).1 hki
    have hql := (List.getElem?_eq_some_iff.1 hq).1
    refine ⟨q, hq, fun t ht => ?_⟩
    rw [hcutp t ht p hpl, hcutp t ht q hql, hqq]
    exact hs t ht
  · rintro ⟨q, hq, hs⟩
    have hql := (List.getElem?_eq_some_iff.1 hq).1
    obtain ⟨k', h4, h5⟩ := hplace q i hq
    rw [hki] at h4
    cases h4
    refine ⟨_, h5, fun t ht => ?_⟩
    rw [← hcutp t ht p hpl, ← hcutp t ht q hql]
    exact hs t ht

/-- the stretches of one cell -/
theorem CutInto.ones {n : Nat} {l : List Nat} : CutInto some n 1 l (fun t => t) where
  first := rfl
  last := by simp
  least := fun t _ => Nat.le_refl _
  most := fun t _ => by omega
  same := by
    intro p x hp i _
    rw [Option.some.injEq, Nat.div_one]
    have hpl := (List.getElem?_eq_some_iff.1 hp).1
    constructor
    · rintro rfl
      exact ⟨p, hp, fun _ _ => Iff.rfl⟩
    · rintro ⟨q, hq, hs⟩
      have hql := (List.getElem?_eq_some_iff.1 hq).1
      have e1 := hs p (by omega)
      have e2 := hs q (by omega)
      have : p = q := by omega
      subst this
      rw [hp] at hq
      exact (Option.some.inj hq).symm

/-- stretches of `c` cells counted from the other end -/
theorem stretch_mirror {L c M d p q : Nat} (hc : 0 < c) (hfit : d + c * M ≤ L) (hp1 : d ≤ p) (hp2 : p < d + c * M) (hq : q < L) :
    (d ≤ q ∧ (q - d) / c = (p - d) / c) ↔ (L - (d + c * M) ≤ L - 1 - q ∧
      (L - 1 - q - (L - (d + c * M))) / c = (L - 1 - p - (L - (d + c * M))) / c) := by
  have key : ∀ x, d ≤ x → x < d + c * M → (L - 1 - x - (L - (d + c * M))) / c + (x - d) / c + 1 = M := by
    intro x h1 h2
    have e1 := Nat.div_add_mod (x - d) c
    have e2 := Nat.mod_lt (x - d) hc
    have hlt : (x - d) / c < M := by
      rw [Nat.div_lt_iff_lt_mul hc, Nat.mul_comm]; omega
    obtain ⟨k, hk⟩ : ∃ k, M = (x - d) / c + k + 1 := ⟨M - 1 - (x - d) / c, by omega⟩
    have e3 : c * M = c * ((x - d) / c) + c * k + c := by
      conv_lhs => rw [hk]
      ring
    have e4 : L - 1 - x - (L - (d + c * M)) = c * k + (c - 1 - (x - d) % c) := by omega
    rw [e4, Nat.mul_add_div hc, Nat.div_eq_of_lt (a := c - 1 - (x - d) % c) (by omega)]
    omega
  have kp := key p hp1 hp2
  constructor
  · rintro ⟨h1, h2⟩
    have h3 : q < d + c * M := by
      by_contra h
      have : M ≤ (q - d) / c := by
        rw [Nat.le_div_iff_mul_le hc, Nat.mul_comm]; omega
      rw [h2] at this
      generalize (p - d) / c = u at *
      generalize (L - 1 - p - (L - (d + c * M))) / c = v at *
      omega
    have kq := key q h1 h3
    exact ⟨by omega, by omega⟩
  · rintro ⟨h1, h2⟩
    have h3 : q < d + c * M := by omega
    by_cases h4 : d ≤ q
    · have kq := key q h4 h3
      exact ⟨h4, by omega⟩
    · exfalso
      have : M ≤ (L - 1 - q - (L - (d + c * M))) / c := by
        rw [Nat.le_div_iff_mul_le hc, Nat.mul_comm]; omega
      rw [h2] at this
      generalize (p - d) / c = u at *
      generalize (L - 1 - p - (L - (d + c * M))) / c = v at *
      omega

/-- the same stretches, the line being read from its other end -/
theorem CutEvenly.reverse {g : Nat → Option Nat} {n c : Nat} {l : List Nat} {d : Nat} (hc : 0 < c) (h : CutEvenly g n c l d) :
    CutEvenly g n c l.reverse (l.length - (d + c * (l.length / c))) := by
  have hfit := h.fits
  refine ⟨by rw [List.length_reverse]; omega, ?_⟩
  intro p x hp hp1 hp2 i hi
  have hpl := (List.getElem?_eq_some_iff.1 hp).1
  rw [List.length_reverse] at hpl hp2
  rw [List.getElem?_reverse hpl] at hp
  rw [h.same _ x hp (by omega) (by omega) i hi]
  have mir : ∀ q < l.length, _ := fun q hq => stretch_mirror (L := l.length) (M := l.length / c) (d := d) (p := l.length - 1 - p) (q := q) hc hfit
    (by omega) (by omega) hq
  rw [show l.length - 1 - (l.length - 1 - p) = p by omega] at mir
  constructor
  · rintro ⟨q, hq, hs⟩
    have hql := (List.getElem?_eq_some_iff.1 hq).1
    refine ⟨l.length - 1 - q, ?_, (mir q hql).1 hs⟩
    rw [List.getElem?_reverse (by omega), show l.length - 1 - (l.length - 1 - q) = q by omega]
    exact hq
  · rintro ⟨q, hq, hs⟩
    have hql := (List.getElem?_eq_some_iff.1 hq).1
    rw [List.length_reverse] at hql
    rw [List.getElem?_reverse hql] at hq
    refine ⟨l.length - 1 - q, hq, (mir _ (by omega)).2 ?_⟩
    rw [show l.length - 1 - (l.length - 1 - q) = q by omega]
    exact hs

/-- one more level: pairs of the cells of a line whose coarse line is cut evenly -/
theorem PairedEvenly.cut {f l l' : List Nat} {n N c : Nat} {g : Nat → Option Nat} {d : Nat} (hc : 0 < c) (h : PairedEvenly f l l')
    (hf : f.length = n) (hN : ∀ k ∈ f, k < N) (hcut : CutEvenly g N c l' d) :
    ∃ d', CutEvenly (fun i => (f[i]?).bind g) n (2 * c) l d' := by
  obtain ⟨hL, m, hm, hg⟩ := h
  have hmlen : m.length = l.length := by rcases hm with rfl | rfl <;> simp
  suffices hmm : ∃ d', CutEvenly (fun i => (f[i]?).bind g) n (2 * c) m d' by
    rcases hm with rfl | rfl
    · exact hmm
    · obtain ⟨d', hd'⟩ := hmm
      have := hd'.reverse (by omega)
      rw [List.reverse_reverse] at this
      exact ⟨_, this⟩
  have hM : m.length / (2 * c) = l'.length / c := by rw [hmlen, hL, Nat.div_div_eq_div_mul]
  have hfit := hcut.fits
  have hassoc : 2 * c * (l'.length / c) = 2 * (c * (l'.length / c)) := Nat.mul_assoc _ _ _
  have hdiv : ∀ q, 2 * d ≤ q → (q - 2 * d) / (2 * c) = (q / 2 - d) / c := by
    intro q hq
    rw [← Nat.div_div_eq_div_mul]
    congr 1
    omega
  refine ⟨2 * d, by rw [hM, hassoc]; omega, ?_⟩
  intro p x hp hp1 hp2 i hi
  rw [hM, hassoc] at hp2
  have hplace : ∀ p x : Nat, m[p]? = some x → p / 2 < l'.length → ∃ k, f[x]? = some k ∧ l'[p / 2]? = some k := by
    intro p x hp hr
    exact ⟨_, (hg _ _ (List.getElem?_eq_getElem hr) x).2 ⟨p, hp, rfl⟩, List.getElem?_eq_getElem hr⟩
  obtain ⟨k, hk1, hk2⟩ := hplace p x hp (by omega)
  obtain ⟨ki, hki⟩ : ∃ ki, f[i]? = some ki := ⟨_, List.getElem?_eq_getElem (by omega)⟩
  have hkiN : ki < N := hN ki (List.mem_of_getElem? hki)
  show ((f[i]?).bind g = (f[x]?).bind g) ↔ _
  rw [hki, hk1, Option.bind_some, Option.bind_some, hcut.same _ k hk2 (by omega) (by omega) ki hkiN, hdiv p hp1]
  have hlt : (p / 2 - d) / c < l'.length / c := by
    rw [Nat.div_lt_iff_lt_mul hc, Nat.mul_comm]; omega
  constructor
  · rintro ⟨q', hq', h1, hs⟩
    obtain ⟨q, hq, hqq⟩ := (hg q' ki hq' i).1 hki
    refine ⟨q, hq, by omega, ?_⟩
    rw [hdiv q (by omega), hqq]
    exact hs
  · rintro ⟨q, hq, h1, hs⟩
    rw [hdiv q h1] at hs
    have hq2 : q / 2 < l'.length := by
      by_contra h
      have : l'.length / c ≤ (q / 2 - d) / c := by
        rw [Nat.le_div_iff_mul_le hc, Nat.mul_comm]; omega
      omega
    obtain ⟨k', h4, h5⟩ := hplace q i hq hq2
    rw [hki] at h4
    cases h4
    exact ⟨_, h5, by omega, hs⟩

/-- stretches of one cell -/
theorem CutEvenly.ones {n : Nat} {l : List Nat} : CutEvenly some n 1 l 0 where
  fits := by simp
  same := by
    intro p x hp _ _ i _
    simp only [Option.some.injEq, Nat.sub_zero, Nat.div_one, Nat.zero_le, true_and]
    constructor
    · rintro rfl
      exact ⟨p, hp, rfl⟩
    · rintro ⟨q, hq, rfl⟩
      rw [hp] at hq
      exact (Option.some.inj hq).symm

end CoMMA
