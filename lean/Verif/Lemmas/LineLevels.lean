import Verif.Spec.LineLevels
import Verif.Lemmas.Layers
import Verif.Props.Hierarchy
/-! # Lines cut in two, level after level: lemmas -/

set_option linter.unusedSectionVars false

namespace CoMMA

variable {W : Type} [Num W]

/-- stretches of `s` cells counted from the other end -/
theorem stretch_reverse {L s p q : Nat} (hs : 0 < s) (hL : L % s = 0) (hp : p < L) (hq : q < L) :
    (L - 1 - p) / s = (L - 1 - q) / s ↔ p / s = q / s := by
  have key : ∀ x < L, (L - 1 - x) / s + x / s + 1 = L / s := by
    intro x hx
    obtain ⟨c, hc⟩ : ∃ c, L = s * c := ⟨L / s, by rw [Nat.mul_div_cancel' (Nat.dvd_of_mod_eq_zero hL)]⟩
    have h1 := Nat.div_add_mod x s
    have h2 := Nat.mod_lt x hs
    have hlt : x / s < c := by
      rw [Nat.div_lt_iff_lt_mul hs, Nat.mul_comm, ← hc]; exact hx
    have h3 : L - 1 - x = s * (c - 1 - x / s) + (s - 1 - x % s) := by
      obtain ⟨d, hd⟩ : ∃ d, c = x / s + d + 1 := ⟨c - 1 - x / s, by omega⟩
      rw [hc]
      have : c - 1 - x / s = d := by omega
      rw [this, hd, Nat.mul_add, Nat.mul_add, Nat.mul_one]
      omega
    rw [h3, Nat.mul_add_div hs, Nat.div_eq_of_lt (a := s - 1 - x % s) (by omega), hc, Nat.mul_div_cancel_left _ hs]
    omega
  have h1 := key p hp
  have h2 := key q hq
  omega

/-- one more level: stretches of the coarse line are stretches of twice as many cells -/
theorem Halved.stretches {f l l' : List Nat} {n N s : Nat} {g : Nat → Option Nat} (hs : 0 < s) (h : Halved f l l')
    (hf : f.length = n) (hN : ∀ k ∈ f, k < N) (hlen : l'.length % s = 0) (ih : InStretches g N s l') :
    InStretches (fun i => (f[i]?).bind g) n (2 * s) l := by
  obtain ⟨hL, m, hm, hg⟩ := h
  have hmlen : m.length = l.length := by rcases hm with rfl | rfl <;> simp
  -- places in `l` and in `m`
  have hplace : ∀ p : Nat, p < l.length → ∃ t, t < l.length ∧ m[t]? = l[p]? ∧ (t = p ∨ t = l.length - 1 - p) ∧
      (m = l → t = p) ∧ (m ≠ l → t = l.length - 1 - p) := by
    intro p hp
    by_cases hml : m = l
    · exact ⟨p, hp, by rw [hml], Or.inl rfl, fun _ => rfl, fun h => absurd hml h⟩
    · have hmr : m = l.reverse := by rcases hm with h | h <;> [exact absurd h hml; exact h]
      refine ⟨l.length - 1 - p, by omega, ?_, Or.inr rfl, fun h => absurd h hml, fun _ => rfl⟩
      rw [hmr, List.getElem?_reverse (by omega)]
      congr 1
      omega
  have hback : ∀ t : Nat, t < l.length → ∃ p, p < l.length ∧ l[p]? = m[t]? ∧ (m = l → t = p) ∧ (m ≠ l → t = l.length - 1 - p) := by
    intro t ht
    by_cases hml : m = l
    · exact ⟨t, ht, by rw [hml], fun _ => rfl, fun h => absurd hml h⟩
    · have hmr : m = l.reverse := by rcases hm with h | h <;> [exact absurd h hml; exact h]
      refine ⟨l.length - 1 - t, by omega, ?_, fun h => absurd h hml, fun _ => by omega⟩
      rw [hmr, List.getElem?_reverse (by omega)]
  have hLs : l.length % (2 * s) = 0 := by
    rw [hL]
    obtain ⟨c, hc⟩ := Nat.dvd_of_mod_eq_zero hlen
    rw [hc, ← Nat.mul_assoc]
    exact Nat.mul_mod_right _ _
  have hcoarse : ∀ t i : Nat, m[t]? = some i → ∃ k, l'[t / 2]? = some k ∧ f[i]? = some k := by
    intro t i ht
    have : t < l.length := by rw [← hmlen]; exact (List.getElem?_eq_some_iff.1 ht).1
    have h2 : t / 2 < l'.length := by omega
    refine ⟨l'[t / 2], List.getElem?_eq_getElem h2, (hg (t / 2) _ (List.getElem?_eq_getElem h2) i).2 ?_⟩
    rcases Nat.mod_two_eq_zero_or_one t with h | h
    · left; rw [show 2 * (t / 2) = t by omega]; exact ht
    · right; rw [show 2 * (t / 2) + 1 = t by omega]; exact ht
  intro p c hp i hi
  have hpl := (List.getElem?_eq_some_iff.1 hp).1
  obtain ⟨t, ht, hmt, htp, htm, htn⟩ := hplace p hpl
  obtain ⟨k, hk, hfk⟩ := hcoarse t c (by rw [hmt, hp])
  have hin : i < f.length := by omega
  have hfi : f[i]? = some f[i] := List.getElem?_eq_getElem hin
  simp only [hfk, hfi, Option.bind_some]
  rw [ih (t / 2) k hk f[i] (hN _ (List.getElem_mem hin))]
  have hdiv : ∀ x y, x / 2 / s = y / 2 / s ↔ x / (2 * s) = y / (2 * s) := by
    intro x y
    rw [Nat.div_div_eq_div_mul, Nat.div_div_eq_div_mul]
  constructor
  · rintro ⟨q', hq', hqs⟩
    obtain ⟨t', ht'2, hmt'⟩ : ∃ t', t' / 2 = q' ∧ m[t']? = some i := by
      rcases (hg q' _ hq' i).1 hfi with h | h
      · exact ⟨2 * q', by omega, h⟩
      · exact ⟨2 * q' + 1, by omega, h⟩
    have ht'l : t' < l.length := by rw [← hmlen]; exact (List.getElem?_eq_some_iff.1 hmt').1
    obtain ⟨q, hq, hlq, hqm, hqn⟩ := hback t' ht'l
    refine ⟨q, by rw [hlq, hmt'], ?_⟩
    rw [← ht'2, hdiv] at hqs
    by_cases hml : m = l
    · rw [← hqm hml, ← htm hml]; exact hqs
    · rw [hqn hml, htn hml] at hqs
      exact (stretch_reverse (by omega) hLs hq hpl).1 hqs
  · rintro ⟨q, hq, hqs⟩
    have hql := (List.getElem?_eq_some_iff.1 hq).1
    obtain ⟨t', ht', hmt', _, htm', htn'⟩ := hplace q hql
    obtain ⟨k', hk', hfk'⟩ := hcoarse t' i (by rw [hmt', hq])
    rw [hfi] at hfk'
    cases hfk'
    refine ⟨t' / 2, hk', ?_⟩
    rw [hdiv]
    by_cases hml : m = l
    · rw [htm' hml, htm hml]; exact hqs
    · rw [htn' hml, htn hml]
      exact (stretch_reverse (by omega) hLs hql hpl).2 hqs

/-- lines with even numbers of cells, all of them taken, are halved -/
theorem CoarsensLines.halved {a : Args W} {fls : List (List Nat)} {out : Outs} (h : CoarsensLines a fls out)
    (hlim : lineLimit a = none) (he : ∀ l ∈ fls, l.length % 2 = 0) :
    ∃ cls, Exports out cls ∧ List.Forall₂ (Halved out.fcToCc) fls cls := by
  obtain ⟨cls, gss, hexp, hpair, hden⟩ := h
  refine ⟨cls, hexp, ?_⟩
  rw [List.forall₂_iff_get]
  refine ⟨by rw [hpair.length_eq, hden.length_eq], fun q hql hcl => ?_⟩
  have hgl : q < gss.length := by rw [← hpair.length_eq]; exact hql
  obtain ⟨l', hor, hpr⟩ := (List.forall₂_iff_get.1 hpair).2 q hql hgl
  have hdq := (List.forall₂_iff_get.1 hden).2 q hgl hcl
  simp only [List.get_eq_getElem] at hor hpr hdq ⊢
  have hev := he fls[q] (List.getElem_mem hql)
  have hl' : l' = fls[q] ∨ l' = fls[q].reverse := by
    obtain ⟨_, _, _, _, h | h⟩ := hor
    · exact Or.inl h.2
    · exact Or.inr h.2
  have hlen : l'.length = fls[q].length := by rcases hl' with h | h <;> simp [h]
  rw [hlim] at hpr
  obtain ⟨hflat, htwo⟩ := hpr.pairs (by rw [hlen]; exact hev)
  have hcount : ∀ gs : List (List Nat), (∀ grp ∈ gs, grp.length = 2) → gs.flatten.length = 2 * gs.length := by
    intro gs
    induction gs with
    | nil => simp
    | cons g r ih =>
      intro hh
      rw [List.flatten_cons, List.length_append, hh g (by simp), ih (fun g hg => hh g (List.mem_cons_of_mem _ hg))]
      simp
      omega
  have hat : ∀ (gs : List (List Nat)), (∀ grp ∈ gs, grp.length = 2) → ∀ (r : Nat) (grp : List Nat), gs[r]? = some grp →
      ∀ i, i ∈ grp ↔ gs.flatten[2 * r]? = some i ∨ gs.flatten[2 * r + 1]? = some i := by
    intro gs
    induction gs with
    | nil => intro _ r grp h; simp at h
    | cons g0 rest ih =>
      intro hh r grp hr i
      obtain ⟨x0, y0, hxy⟩ : ∃ x y, g0 = [x, y] := by
        have := hh g0 (by simp)
        match g0, this with
        | [x, y], _ => exact ⟨x, y, rfl⟩
      subst hxy
      cases r with
      | zero =>
        simp only [List.getElem?_cons_zero, Option.some.injEq] at hr
        subst hr
        simp [eq_comm]
      | succ r =>
        rw [List.getElem?_cons_succ] at hr
        rw [ih (fun g hg => hh g (List.mem_cons_of_mem _ hg)) r grp hr i]
        have e1 : ([x0, y0] :: rest).flatten[2 * (r + 1)]? = rest.flatten[2 * r]? := by
          rw [List.flatten_cons, List.getElem?_append_right (by simp; omega)]
          congr 1
        have e2 : ([x0, y0] :: rest).flatten[2 * (r + 1) + 1]? = rest.flatten[2 * r + 1]? := by
          rw [List.flatten_cons, List.getElem?_append_right (by simp; omega)]
          have : 2 * (r + 1) + 1 - [x0, y0].length = 2 * r + 1 := by simp; omega
          rw [this]
        rw [e1, e2]
  refine ⟨?_, l', hl', fun p k hk i => ?_⟩
  · rw [← hlen, ← hflat, hcount _ htwo, hdq.length_eq]
  · obtain ⟨hp1, hp2⟩ := List.getElem?_eq_some_iff.1 hk
    have hpg : p < gss[q].length := by rw [hdq.length_eq]; exact hp1
    have := (List.forall₂_iff_get.1 hdq).2 p hpg hp1
    simp only [List.get_eq_getElem, hp2] at this
    rw [this i, hat _ htwo p _ (List.getElem?_eq_getElem hpg) i, hflat]

end CoMMA
