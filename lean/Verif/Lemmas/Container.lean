import Verif.Lemmas.Ok
import Verif.Lemmas.Containers
import Verif.Model.Container
import Mathlib.Data.List.Count
/-! # Container of coarse cells: invariant and creation -/

set_option linter.unusedSectionVars false

namespace CoMMA

/-- invariant of a container over `n` fine cells (no delayed cell) -/
structure CInv (n : Nat) (c : Cont) : Prop where
  lenF : c.fc2cc.length = n
  lenA : c.agg.length = n
  agg : ∀ i : Nat, c.agg[i]? = some true ↔ ∃ k, c.fc2cc[i]? = some (some k)
  nbAgg : c.nbAgg = c.agg.count true
  keys : ∀ k, k ∈ c.ccs.keys ↔ k < c.counter
  range : ∀ (i : Nat) k, c.fc2cc[i]? = some (some k) → k < c.counter
  part : ∀ k cc, c.ccs.find? k = some cc → ∀ i : Nat, i ∈ cc.fcs ↔ c.fc2cc[i]? = some (some k)
  card : ∀ k cc, c.ccs.find? k = some cc → cc.card = cc.fcs.card ∧ 0 < cc.card
  delayed : c.delayed = []
  singSorted : c.singular.Pairwise (· < ·)
  sing : ∀ k, k ∈ c.singular ↔ ∃ cc, c.ccs.find? k = some cc ∧ cc.iso = true ∧ cc.card ≤ c.thresh

theorem CInv_new (n thresh : Nat) : CInv n (Cont.new n thresh) := by
  have hF : ∀ (i : Nat) k, ¬ (List.replicate n (none : Option Nat))[i]? = some (some k) := by
    intro i k h
    have := List.mem_of_getElem? h
    simp at this
  refine ⟨by simp [Cont.new], by simp [Cont.new], ?_, ?_, ?_, ?_, ?_, ?_, rfl, by simp [Cont.new], by simp [Cont.new]⟩
  · intro i
    constructor
    · intro h
      have := List.mem_of_getElem? h
      simp [Cont.new] at this
    · rintro ⟨k, h⟩; exact absurd h (hF i k)
  · simp only [Cont.new]; rw [List.count_replicate]; simp
  · intro k; simp [Cont.new, NMap.empty, NMap.keys]
  · intro i k h; exact absurd h (hF i k)
  · intro k cc h; simp [Cont.new] at h
  · intro k cc h; simp [Cont.new] at h

theorem CInv.keys' {n : Nat} {c : Cont} (h : CInv n c) {k : Nat} (hk : k < c.counter) : ∃ cc, c.ccs.find? k = some cc :=
  NMap.mem_keys.1 ((h.keys k).2 hk)

/-- marking free cells -/
theorem markAll_spec {n : Nat} {c : Cont} (hla : c.agg.length = n) {s : NSet}
    (hs : ∀ x ∈ s, c.fc2cc[x]? = some none ∧ c.agg[x]? = some false) :
    Ok (c.markAll s) (fun c' => c' = { c with agg := c'.agg, nbAgg := c'.nbAgg } ∧ c'.agg.length = n ∧
      (∀ i : Nat, c'.agg[i]? = if i ∈ s then some true else c.agg[i]?) ∧
      c'.nbAgg = c.nbAgg + s.card ∧ c'.agg.count true = c.agg.count true + s.card) := by
  unfold Cont.markAll
  refine Ok.mono (Ok.foldlM_prefix (I := fun pre (c' : Cont) =>
    c' = { c with agg := c'.agg, nbAgg := c'.nbAgg } ∧ c'.agg.length = n ∧
    (∀ i : Nat, c'.agg[i]? = if i ∈ pre then some true else c.agg[i]?) ∧
    c'.nbAgg = c.nbAgg + pre.length ∧ c'.agg.count true = c.agg.count true + pre.length) ?_ ?_) ?_
  · exact ⟨rfl, hla, by simp, rfl, rfl⟩
  · rintro pre x post c' hsp ⟨h1, h2, h3, h4, h5⟩
    have hx : x ∈ s := by rw [← NSet.mem_elems, hsp]; simp
    have hxp : x ∉ pre := by
      have hn := s.nodup
      rw [hsp] at hn
      intro hh
      exact (List.nodup_append.1 hn).2.2 x hh x (by simp) rfl
    have hfc : c'.fc2cc[x]? = some none := by rw [h1]; exact (hs x hx).1
    have hag : c'.agg[x]? = some false := by rw [h3, if_neg hxp]; exact (hs x hx).2
    have hxn : x < c'.agg.length := (List.getElem?_eq_some_iff.1 hag).1
    rw [rd_ok.2 hfc, ok_bind]
    refine Ok.bind (P := fun _ => True) (Ok_assertM rfl trivial) ?_
    intro _ _
    rw [rd_ok.2 hag, ok_bind]
    simp only [Bool.false_eq_true, if_false]
    rw [wr_of_lt hxn, ok_bind, Ok_pure]
    refine ⟨by rw [h1], by simp [h2], ?_, by simp [h4]; omega, ?_⟩
    · intro i
      simp only [List.mem_append, List.mem_singleton]
      rw [List.getElem?_set]
      by_cases hi : x = i
      · subst hi; simp [hxn]
      · rw [if_neg hi, h3]
        simp [Ne.symm hi]
    · simp only [List.length_append, List.length_singleton]
      have hget : c'.agg[x] = false := (List.getElem?_eq_some_iff.1 hag).2
      rw [List.count_set hxn, hget, h5]
      simp; omega
  · rintro c' ⟨h1, h2, h3, h4, h5⟩
    exact ⟨h1, h2, h3, h4, h5⟩

theorem assignAll_spec {n : Nat} {c : Cont} (hl : c.fc2cc.length = n) {s : NSet}
    (hs : ∀ x ∈ s, c.fc2cc[x]? = some none) :
    Ok (c.assignAll s) (fun c' => c' = { c with fc2cc := c'.fc2cc } ∧ c'.fc2cc.length = n ∧
      (∀ i : Nat, c'.fc2cc[i]? = if i ∈ s then some (some c.counter) else c.fc2cc[i]?)) := by
  unfold Cont.assignAll
  refine Ok.mono (Ok.foldlM_prefix (I := fun pre (c' : Cont) =>
    c' = { c with fc2cc := c'.fc2cc } ∧ c'.fc2cc.length = n ∧
    (∀ i : Nat, c'.fc2cc[i]? = if i ∈ pre then some (some c.counter) else c.fc2cc[i]?)) ?_ ?_) ?_
  · exact ⟨rfl, hl, by simp⟩
  · rintro pre x post c' hsp ⟨h1, h2, h3⟩
    have hx : x ∈ s := by rw [← NSet.mem_elems, hsp]; simp
    have hxp : x ∉ pre := by
      have hn := s.nodup
      rw [hsp] at hn
      intro hh
      exact (List.nodup_append.1 hn).2.2 x hh x (by simp) rfl
    have hfc : c'.fc2cc[x]? = some none := by rw [h3, if_neg hxp]; exact hs x hx
    have hxn : x < c'.fc2cc.length := (List.getElem?_eq_some_iff.1 hfc).1
    rw [rd_ok.2 hfc, ok_bind]
    refine Ok.bind (P := fun _ => True) (Ok_assertM rfl trivial) ?_
    intro _ _
    rw [wr_of_lt hxn, ok_bind, Ok_pure]
    have hct : c'.counter = c.counter := by rw [h1]
    refine ⟨by rw [h1], by simp [h2], ?_⟩
    intro i
    simp only [List.mem_append, List.mem_singleton]
    rw [List.getElem?_set]
    by_cases hi : x = i
    · subst hi; simp [hxn, hct]
    · rw [if_neg hi, h3]
      simp [Ne.symm hi]
  · rintro c' ⟨h1, h2, h3⟩
    exact ⟨h1, h2, h3⟩

theorem CInv.free {n : Nat} {c : Cont} (h : CInv n c) {x : Nat} (hx : c.agg[x]? = some false) : c.fc2cc[x]? = some none := by
  have hlt : x < n := by
    have := (List.getElem?_eq_some_iff.1 hx).1
    rw [h.lenA] at this; exact this
  have hlt' : x < c.fc2cc.length := by rw [h.lenF]; exact hlt
  cases hf : c.fc2cc[x]? with
  | none => rw [List.getElem?_eq_none_iff] at hf; omega
  | some o =>
    cases o with
    | none => rfl
    | some k =>
      have := (h.agg x).2 ⟨k, hf⟩
      rw [hx] at this; simp at this

/-- effect of the creation of a coarse cell -/
structure Created (c : Cont) (s : NSet) (compact : Nat) (aniso : Bool) (c' : Cont) : Prop where
  ccs : c'.ccs = c.ccs.insert c.counter (CC.new s compact (!aniso))
  counter : c'.counter = c.counter + 1
  fc2cc : ∀ i : Nat, c'.fc2cc[i]? = if i ∈ s then some (some c.counter) else c.fc2cc[i]?
  agg : ∀ i : Nat, c'.agg[i]? = if i ∈ s then some true else c.agg[i]?
  nbAgg : c'.nbAgg = c.nbAgg + s.card
  singular : c'.singular = if !aniso && decide (s.card ≤ c.thresh) then c.singular ++ [c.counter] else c.singular
  thresh : c'.thresh = c.thresh

theorem create_spec {n : Nat} {c : Cont} (h : CInv n c) {s : NSet} (hne : 0 < s.card)
    (hs : ∀ x ∈ s, c.agg[x]? = some false) (compact : Nat) (aniso : Bool) :
    Ok (c.create s compact aniso false) (fun r => r.1 = c.counter ∧ CInv n r.2 ∧ Created c s compact aniso r.2) := by
  unfold Cont.create
  refine Ok.bind (P := fun _ => True) (Ok_assertM (by simp) trivial) ?_
  intro _ _
  refine Ok.bind (markAll_spec h.lenA (fun x hx => ⟨h.free (hs x hx), hs x hx⟩)) ?_
  rintro c1 ⟨h1, h2, h3, h4, h5⟩
  simp only [Bool.false_eq_true, if_false]
  have hreg : ∃ c2, c1.register s compact aniso = c2 ∧ c2.fc2cc = c.fc2cc ∧ c2.counter = c.counter ∧
      c2.agg = c1.agg ∧ c2.nbAgg = c1.nbAgg ∧ c2.thresh = c.thresh ∧ c2.delayed = c.delayed ∧
      c2.ccs = c.ccs.insert c.counter (CC.new s compact (!aniso)) ∧
      c2.singular = if !aniso && decide (s.card ≤ c.thresh) then c.singular ++ [c.counter] else c.singular := by
    refine ⟨_, rfl, ?_⟩
    unfold Cont.register
    cases aniso with
    | true => rw [h1]; exact ⟨rfl, rfl, rfl, rfl, rfl, rfl, rfl, rfl⟩
    | false => rw [h1]; simp
  obtain ⟨c2, hc2, r1, r2, r3, r4, r5, r6, r7, r8⟩ := hreg
  rw [hc2]
  refine Ok.bind (assignAll_spec (n := n) (by rw [r1]; exact h.lenF)
    (fun x hx => by rw [r1]; exact h.free (hs x hx))) ?_
  rintro c3 ⟨h6, h7, h8⟩
  rw [Ok_pure]
  simp only
  rw [r2, r1] at h8
  have e1 : c3.ccs = c2.ccs := by rw [h6]
  have e2 : c3.counter = c2.counter := by rw [h6]
  have e3 : c3.agg = c2.agg := by rw [h6]
  have e4 : c3.nbAgg = c2.nbAgg := by rw [h6]
  have e5 : c3.singular = c2.singular := by rw [h6]
  have e6 : c3.thresh = c2.thresh := by rw [h6]
  have e7 : c3.delayed = c2.delayed := by rw [h6]
  have hold : ∀ (i : Nat) k, c.fc2cc[i]? = some (some k) → i ∉ s := by
    intro i k hik his
    have := h.free (hs i his)
    rw [hik] at this; simp at this
  refine ⟨by rw [e2, r2], ⟨h7, by simp only; rw [e3, r3]; exact h2, ?_, ?_, ?_, ?_, ?_, ?_, by simp only; rw [e7, r6]; exact h.delayed, ?_, ?_⟩,
    ⟨by simp only; rw [e1, r7], by simp only; rw [e2, r2], h8, by simp only; rw [e3, r3]; exact h3,
      by simp only; rw [e4, r4, h4], by simp only; rw [e5, r8], by simp only; rw [e6, r5]⟩⟩
  · intro i
    simp only
    rw [e3, r3, h3, h8]
    by_cases hi : i ∈ s
    · simp [hi]
    · simp only [hi, if_false]; exact h.agg i
  · simp only; rw [e4, r4, e3, r3, h4, h5, h.nbAgg]
  · intro k
    simp only
    rw [e1, r7, e2, r2, NMap.mem_keys_insert, h.keys]
    omega
  · intro i k
    simp only
    rw [h8, e2, r2]
    split
    · intro hk; cases hk; omega
    · intro hk; have := h.range i k hk; omega
  · intro k cc
    simp only
    rw [e1, r7, NMap.find?_insert]
    intro hk i
    rw [h8]
    split at hk
    · rename_i hkc
      cases hk
      simp only [CC.new, hkc]
      by_cases hi : i ∈ s
      · simp [hi]
      · simp only [hi, if_false, false_iff]
        intro hh
        have := h.range i _ hh
        omega
    · rename_i hkc
      rw [h.part k cc hk i]
      by_cases hi : i ∈ s
      · simp only [hi, if_true]
        constructor
        · intro hh; exact absurd hi (hold i k hh)
        · intro hh; cases hh; exact absurd rfl hkc
      · simp [hi]
  · intro k cc
    simp only
    rw [e1, r7, NMap.find?_insert]
    intro hk
    split at hk
    · cases hk
      exact ⟨rfl, hne⟩
    · exact h.card k cc hk
  · simp only
    rw [e5, r8]
    split
    · rw [List.pairwise_append]
      refine ⟨h.singSorted, by simp, ?_⟩
      intro a ha b hb
      obtain ⟨cc, hcc, _⟩ := (h.sing a).1 ha
      have := (h.keys a).1 (NMap.mem_keys.2 ⟨cc, hcc⟩)
      simp only [List.mem_singleton] at hb
      omega
    · exact h.singSorted
  · intro k
    simp only
    rw [e5, r8, e1, r7, e6, r5, NMap.find?_insert]
    by_cases hk : k = c.counter
    · subst hk
      have hnot : c.counter ∉ c.singular := by
        intro hh
        obtain ⟨cc, hcc, _⟩ := (h.sing _).1 hh
        have := (h.keys _).1 (NMap.mem_keys.2 ⟨cc, hcc⟩)
        omega
      cases aniso <;> by_cases hle : s.card ≤ c.thresh <;> simp [CC.new, hle, hnot]
    · rw [if_neg hk, ← h.sing k]
      split <;> simp [hk]

end CoMMA
