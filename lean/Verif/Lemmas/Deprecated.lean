import Verif.Model.Deprecated
import Verif.Spec.Deprecated
import Verif.Lemmas.Ok
import Mathlib.Data.List.Nodup
/-! # Lemmas on the deprecated containers -/

set_option linter.unusedSectionVars false

namespace CoMMA

variable {A B : Type} [DecidableEq A] [DecidableEq B]

/-- a pair of nodes that point to each other -/
structure Link (A B : Type) where
  a : A
  ia : Nat
  b : B
  ib : Nat

/-- the two maps hold links: every node of one map points to a node of the other one that points
back -/
structure SonsLinked (L : List (Link A B)) (m : Bimap A B) : Prop where
  mapA : m.mapA = L.map (fun l => ⟨l.b, l.ib, some l.ia⟩)
  mapB : m.mapB = L.map (fun l => ⟨l.a, l.ia, some l.ib⟩)
  ndA : (L.map (·.a)).Nodup
  ndB : (L.map (·.b)).Nodup
  ndIA : (L.map (·.ia)).Nodup
  ndIB : (L.map (·.ib)).Nodup
  ltA : ∀ l ∈ L, l.ia < m.next
  ltB : ∀ l ∈ L, l.ib < m.next

theorem inj_of_nodup {α β : Type} {f : α → β} {l : List α} (h : (l.map f).Nodup) {x y : α} (hx : x ∈ l)
    (hy : y ∈ l) (e : f x = f y) : x = y := by
  exact List.inj_on_of_nodup_map h hx hy e

theorem find?_unique {α : Type} {p : α → Bool} {l : List α} {x : α} (hx : x ∈ l) (hp : p x = true)
    (hu : ∀ y ∈ l, p y = true → y = x) : l.find? p = some x := by
  cases h : l.find? p with
  | none => exact absurd hp (by simpa using List.find?_eq_none.1 h x hx)
  | some y => rw [hu y (List.mem_of_find?_eq_some h) (List.find?_some h)]

theorem SonsLinked.findB {L : List (Link A B)} {m : Bimap A B} (h : SonsLinked L m) {l : Link A B} (hl : l ∈ L) :
    findKey m.mapB l.a = some ⟨l.a, l.ia, some l.ib⟩ := by
  rw [h.mapB]
  refine find?_unique (List.mem_map.2 ⟨l, hl, rfl⟩) (by simp) ?_
  intro y hy hp
  obtain ⟨l', hl', rfl⟩ := List.mem_map.1 hy
  rw [inj_of_nodup h.ndA hl' hl (by simpa using hp)]

theorem SonsLinked.findA {L : List (Link A B)} {m : Bimap A B} (h : SonsLinked L m) {l : Link A B} (hl : l ∈ L) :
    findKey m.mapA l.b = some ⟨l.b, l.ib, some l.ia⟩ := by
  rw [h.mapA]
  refine find?_unique (List.mem_map.2 ⟨l, hl, rfl⟩) (by simp) ?_
  intro y hy hp
  obtain ⟨l', hl', rfl⟩ := List.mem_map.1 hy
  rw [inj_of_nodup h.ndB hl' hl (by simpa using hp)]

theorem SonsLinked.findB_none {L : List (Link A B)} {m : Bimap A B} (h : SonsLinked L m) {a : A}
    (ha : a ∉ L.map (·.a)) : findKey m.mapB a = none := by
  rw [h.mapB]
  refine List.find?_eq_none.2 ?_
  intro y hy
  obtain ⟨l', hl', rfl⟩ := List.mem_map.1 hy
  simp only [decide_eq_true_eq]
  intro e; exact ha (List.mem_map.2 ⟨l', hl', e⟩)

theorem SonsLinked.findA_none {L : List (Link A B)} {m : Bimap A B} (h : SonsLinked L m) {b : B}
    (hb : b ∉ L.map (·.b)) : findKey m.mapA b = none := by
  rw [h.mapA]
  refine List.find?_eq_none.2 ?_
  intro y hy
  obtain ⟨l', hl', rfl⟩ := List.mem_map.1 hy
  simp only [decide_eq_true_eq]
  intro e; exact hb (List.mem_map.2 ⟨l', hl', e⟩)

theorem SonsLinked.derefA {L : List (Link A B)} {m : Bimap A B} (h : SonsLinked L m) {l : Link A B} (hl : l ∈ L) :
    derefKey m.mapA (some l.ib) = .ok l.b := by
  unfold derefKey
  simp only
  rw [find?_unique (x := ⟨l.b, l.ib, some l.ia⟩) (by rw [h.mapA]; exact List.mem_map.2 ⟨l, hl, rfl⟩) (by simp)]
  intro y hy hp
  rw [h.mapA] at hy
  obtain ⟨l', hl', rfl⟩ := List.mem_map.1 hy
  rw [inj_of_nodup h.ndIB hl' hl (by simpa using hp)]

theorem SonsLinked.derefB {L : List (Link A B)} {m : Bimap A B} (h : SonsLinked L m) {l : Link A B} (hl : l ∈ L) :
    derefKey m.mapB (some l.ia) = .ok l.a := by
  unfold derefKey
  simp only
  rw [find?_unique (x := ⟨l.a, l.ia, some l.ib⟩) (by rw [h.mapB]; exact List.mem_map.2 ⟨l, hl, rfl⟩) (by simp)]
  intro y hy hp
  rw [h.mapB] at hy
  obtain ⟨l', hl', rfl⟩ := List.mem_map.1 hy
  rw [inj_of_nodup h.ndIA hl' hl (by simpa using hp)]

/-- pairs of a list of links -/
def linkPairs (L : List (Link A B)) : List (A × B) := L.map (fun l => (l.a, l.b))

theorem linkPairs_fst (L : List (Link A B)) : (linkPairs L).map (·.1) = L.map (·.a) := by
  simp [linkPairs]

theorem linkPairs_snd (L : List (Link A B)) : (linkPairs L).map (·.2) = L.map (·.b) := by
  simp [linkPairs]

theorem SonsLinked.insert_old {L : List (Link A B)} {m : Bimap A B} (h : SonsLinked L m) {l : Link A B}
    (hl : l ∈ L) : SonsLinked L (m.insert l.a l.b) := by
  have e1 : insertNode m.mapA m.next l.b none = (m.mapA, l.ib, m.next) := by
    unfold insertNode; rw [h.findA hl]
  have e2 : insertNode m.mapB m.next l.a (some l.ib) = (m.mapB, l.ia, m.next) := by
    unfold insertNode; rw [h.findB hl]
  unfold Bimap.insert
  simp only [e1, e2]
  refine { h with mapA := ?_ }
  simp only [h.mapA, List.map_map]
  refine List.map_congr_left ?_
  intro l' hl'
  simp only [Function.comp]
  split
  · rename_i e
    rw [inj_of_nodup h.ndB hl' hl e]
  · rfl

theorem SonsLinked.insert_new {L : List (Link A B)} {m : Bimap A B} (h : SonsLinked L m) {a : A} {b : B}
    (ha : a ∉ L.map (·.a)) (hb : b ∉ L.map (·.b)) :
    SonsLinked (L ++ [⟨a, m.next + 1, b, m.next⟩]) (m.insert a b) := by
  have e1 : insertNode m.mapA m.next b none = (m.mapA ++ [⟨b, m.next, none⟩], m.next, m.next + 1) := by
    unfold insertNode; rw [h.findA_none hb]
  have e2 : insertNode m.mapB (m.next + 1) a (some m.next) =
      (m.mapB ++ [⟨a, m.next + 1, some m.next⟩], m.next + 1, m.next + 2) := by
    unfold insertNode; rw [h.findB_none ha]
  unfold Bimap.insert
  simp only [e1, e2]
  have hA : ∀ l ∈ L, l.ia < m.next := h.ltA
  have hB : ∀ l ∈ L, l.ib < m.next := h.ltB
  refine ⟨?_, ?_, ?_, ?_, ?_, ?_, ?_, ?_⟩
  · simp only [h.mapA, List.map_append, List.map_map, List.map_cons, List.map_nil, if_true]
    congr 1
    refine List.map_congr_left ?_
    intro l' hl'
    simp only [Function.comp]
    rw [if_neg]
    intro e; exact hb (List.mem_map.2 ⟨l', hl', e⟩)
  · simp [h.mapB]
  · rw [List.map_append, List.nodup_append]
    refine ⟨h.ndA, by simp, ?_⟩
    intro x hx y hy
    simp only [List.map_cons, List.map_nil, List.mem_singleton] at hy
    subst hy
    rintro rfl
    exact ha hx
  · rw [List.map_append, List.nodup_append]
    refine ⟨h.ndB, by simp, ?_⟩
    intro x hx y hy
    simp only [List.map_cons, List.map_nil, List.mem_singleton] at hy
    subst hy
    rintro rfl
    exact hb hx
  · rw [List.map_append, List.nodup_append]
    refine ⟨h.ndIA, by simp, ?_⟩
    intro x hx y hy
    simp only [List.map_cons, List.map_nil, List.mem_singleton] at hy
    obtain ⟨l', hl', rfl⟩ := List.mem_map.1 hx
    have := hA l' hl'
    omega
  · rw [List.map_append, List.nodup_append]
    refine ⟨h.ndIB, by simp, ?_⟩
    intro x hx y hy
    simp only [List.map_cons, List.map_nil, List.mem_singleton] at hy
    obtain ⟨l', hl', rfl⟩ := List.mem_map.1 hx
    have := hB l' hl'
    omega
  · intro l hl
    rcases List.mem_append.1 hl with hl | hl
    · have := hA l hl; show l.ia < m.next + 2; omega
    · rw [List.mem_singleton.1 hl]; show m.next + 1 < m.next + 2; omega
  · intro l hl
    rcases List.mem_append.1 hl with hl | hl
    · have := hB l hl; show l.ib < m.next + 2; omega
    · rw [List.mem_singleton.1 hl]; show m.next < m.next + 2; omega

theorem SonsLinked.findKey_rest {K : Type} [DecidableEq K] {l : List (BNode K)} {old new : K}
    (h : old = new ∨ ∀ x ∈ l, x.key ≠ new) :
    findKey (l.filter (fun x => !decide (x.key = old))) new = none := by
  refine List.find?_eq_none.2 ?_
  intro x hx
  rw [List.mem_filter] at hx
  simp only [decide_eq_true_eq]
  rcases h with rfl | h
  · simpa using hx.2
  · exact h x hx.1

theorem renameKey_eq {K : Type} [DecidableEq K] {l : List (BNode K)} {old new : K}
    (h : old = new ∨ ∀ x ∈ l, x.key ≠ new) :
    renameKey l old new = l.map (fun x => if x.key = old then { x with key := new } else x) := by
  unfold renameKey
  cases hf : findKey l old with
  | none =>
    simp only
    symm
    rw [List.map_congr_left (g := id)]
    · simp
    · intro x hx
      have := List.find?_eq_none.1 hf x hx
      rw [if_neg (by simpa using this)]; rfl
  | some x => simp only [SonsLinked.findKey_rest h]

theorem SonsLinked.updateB {L : List (Link A B)} {m : Bimap A B} (h : SonsLinked L m) {o n : A}
    (hn : o = n ∨ n ∉ L.map (·.a)) :
    SonsLinked (L.map (fun l => if l.a = o then { l with a := n } else l)) (m.updateB o n) := by
  have hk : o = n ∨ ∀ x ∈ m.mapB, x.key ≠ n := by
    rcases hn with h1 | h1
    · exact .inl h1
    · right
      intro x hx
      rw [h.mapB] at hx
      obtain ⟨l, hl, rfl⟩ := List.mem_map.1 hx
      intro e; exact h1 (List.mem_map.2 ⟨l, hl, e⟩)
  unfold Bimap.updateB
  rw [renameKey_eq hk]
  have hnd : ((L.map (fun l => if l.a = o then { l with a := n } else l)).map (·.a)).Nodup := by
    rw [List.map_map]
    have e : ((fun l : Link A B => l.a) ∘ fun l => if l.a = o then { l with a := n } else l) =
        (fun x => if x = o then n else x) ∘ (fun l : Link A B => l.a) := by
      funext l; simp only [Function.comp]; split <;> rfl
    rw [e, ← List.map_map]
    refine List.Nodup.map_on ?_ h.ndA
    intro x hx y hy exy
    rcases hn with rfl | hn
    · by_cases hxo : x = o <;> by_cases hyo : y = o <;> simp_all
    · by_cases hxo : x = o <;> by_cases hyo : y = o
      · rw [hxo, hyo]
      · rw [if_pos hxo, if_neg hyo] at exy; exact absurd (exy ▸ hy) hn
      · rw [if_neg hxo, if_pos hyo] at exy; exact absurd (exy ▸ hx) hn
      · rwa [if_neg hxo, if_neg hyo] at exy
  have same : ∀ {γ : Type} (f : Link A B → γ) (_ : ∀ l a', f { l with a := a' } = f l),
      (L.map (fun l => if l.a = o then { l with a := n } else l)).map f = L.map f := by
    intro γ f hf
    rw [List.map_map]
    refine List.map_congr_left ?_
    intro l _
    simp only [Function.comp]
    split
    · exact hf _ _
    · rfl
  refine ⟨?_, ?_, hnd, ?_, ?_, ?_, ?_, ?_⟩
  · rw [same _ (fun _ _ => rfl)]; exact h.mapA
  · simp only [h.mapB, List.map_map]
    refine List.map_congr_left ?_
    intro l _
    simp only [Function.comp]
    split <;> rfl
  · rw [same _ (fun _ _ => rfl)]; exact h.ndB
  · rw [same _ (fun _ _ => rfl)]; exact h.ndIA
  · rw [same _ (fun _ _ => rfl)]; exact h.ndIB
  · intro l hl
    obtain ⟨l', hl', rfl⟩ := List.mem_map.1 hl
    have := h.ltA l' hl'
    split <;> exact this
  · intro l hl
    obtain ⟨l', hl', rfl⟩ := List.mem_map.1 hl
    have := h.ltB l' hl'
    split <;> exact this

/-- the same bimap with the two sides exchanged -/
def Bimap.swap (m : Bimap A B) : Bimap B A := ⟨m.mapB, m.mapA, m.next⟩

theorem SonsLinked.swap {L : List (Link A B)} {m : Bimap A B} (h : SonsLinked L m) :
    SonsLinked (L.map (fun l => (⟨l.b, l.ib, l.a, l.ia⟩ : Link B A))) m.swap := by
  refine ⟨?_, ?_, ?_, ?_, ?_, ?_, ?_, ?_⟩
  · rw [List.map_map]; exact h.mapB
  · rw [List.map_map]; exact h.mapA
  · rw [List.map_map]; exact h.ndB
  · rw [List.map_map]; exact h.ndA
  · rw [List.map_map]; exact h.ndIB
  · rw [List.map_map]; exact h.ndIA
  · intro l hl
    obtain ⟨l', hl', rfl⟩ := List.mem_map.1 hl
    exact h.ltB l' hl'
  · intro l hl
    obtain ⟨l', hl', rfl⟩ := List.mem_map.1 hl
    exact h.ltA l' hl'

theorem SonsLinked.updateA {L : List (Link A B)} {m : Bimap A B} (h : SonsLinked L m) {o n : B}
    (hn : o = n ∨ n ∉ L.map (·.b)) :
    SonsLinked (L.map (fun l => if l.b = o then { l with b := n } else l)) (m.updateA o n) := by
  have := ((h.swap.updateB (o := o) (n := n) (by simpa [List.map_map] using hn)).swap)
  have e : (m.swap.updateB o n).swap = m.updateA o n := rfl
  rw [e] at this
  have e2 : L.map (fun l => if l.b = o then { l with b := n } else l) =
      ((L.map (fun l => (⟨l.b, l.ib, l.a, l.ia⟩ : Link B A))).map
        (fun l => if l.a = o then { l with a := n } else l)).map
        (fun l => (⟨l.b, l.ib, l.a, l.ia⟩ : Link A B)) := by
    rw [List.map_map, List.map_map]
    refine List.map_congr_left ?_
    intro l _
    simp only [Function.comp]
    split <;> rfl
  rw [e2]; exact this

theorem SonsLinked.eraseB {L : List (Link A B)} {m : Bimap A B} (h : SonsLinked L m) {l : Link A B} (hl : l ∈ L) :
    Ok (m.eraseB l.a) (SonsLinked (L.filter (fun x => !decide (x.a = l.a)))) := by
  unfold Bimap.eraseB
  rw [h.findB hl]
  simp only
  rw [h.derefA hl]
  simp only [ok_bind]
  rw [h.findA hl]
  simp only [Ok_pure]
  have sub : ∀ {γ : Type} (f : Link A B → γ), (L.map f).Nodup →
      ((L.filter (fun x => !decide (x.a = l.a))).map f).Nodup :=
    fun f hf => List.Nodup.sublist (List.Sublist.map f List.filter_sublist) hf
  refine ⟨?_, ?_, sub _ h.ndA, sub _ h.ndB, sub _ h.ndIA, sub _ h.ndIB, ?_, ?_⟩
  · simp only [h.mapA, List.filter_map]
    congr 1
    refine List.filter_congr ?_
    intro x hx
    simp only [Function.comp]
    congr 1
    rw [decide_eq_decide]
    constructor
    · intro e; rw [inj_of_nodup h.ndB hx hl e]
    · intro e; rw [inj_of_nodup h.ndA hx hl e]
  · rw [h.mapB, List.filter_map]; rfl
  · intro x hx; exact h.ltA x (List.mem_filter.1 hx).1
  · intro x hx; exact h.ltB x (List.mem_filter.1 hx).1

/-- one call keeps the maps linked -/
theorem SonsLinked.call {L : List (Link A B)} {m : Bimap A B} (h : SonsLinked L m) {c : BimapCall A B}
    (hc : OneToOneCall (linkPairs L) c) :
    Ok (m.call c) (fun m' => ∃ L', SonsLinked L' m' ∧ linkPairs L' = pairsAfter (linkPairs L) c) := by
  cases c with
  | insert a b =>
    by_cases hin : (a, b) ∈ linkPairs L
    · obtain ⟨l, hl, e⟩ := List.mem_map.1 hin
      obtain ⟨rfl, rfl⟩ := Prod.mk.inj e
      exact ⟨L, h.insert_old hl, by simp only [pairsAfter]; rw [if_pos hin]⟩
    · rcases hc with hc | ⟨h1, h2⟩
      · exact absurd hc hin
      · rw [linkPairs_fst] at h1
        rw [linkPairs_snd] at h2
        refine ⟨_, h.insert_new h1 h2, ?_⟩
        simp only [pairsAfter]; rw [if_neg hin]; simp [linkPairs]
  | updateB o n =>
    refine ⟨_, h.updateB (o := o) (n := n) ?_, ?_⟩
    · rw [← linkPairs_fst]; exact hc
    · simp only [pairsAfter, linkPairs, List.map_map]
      refine List.map_congr_left ?_
      intro l _
      simp only [Function.comp]
      split <;> rfl
  | updateA o n =>
    refine ⟨_, h.updateA (o := o) (n := n) ?_, ?_⟩
    · rw [← linkPairs_snd]; exact hc
    · simp only [pairsAfter, linkPairs, List.map_map]
      refine List.map_congr_left ?_
      intro l _
      simp only [Function.comp]
      split <;> rfl
  | eraseB a =>
    have hc' : a ∈ L.map (·.a) := by rw [← linkPairs_fst]; exact hc
    obtain ⟨l, hl, rfl⟩ := List.mem_map.1 hc'
    refine Ok.mono (h.eraseB hl) ?_
    intro m' hm'
    refine ⟨_, hm', ?_⟩
    simp only [pairsAfter, linkPairs, List.filter_map]
    rfl

theorem Bimap.calls_linked {l : List (BimapCall A B)} : ∀ {L : List (Link A B)} {m : Bimap A B},
    SonsLinked L m → OneToOneFrom (linkPairs L) l →
    Ok (l.foldlM Bimap.call m) (fun m' => ∃ L', SonsLinked L' m' ∧ linkPairs L' = pairsFrom (linkPairs L) l) := by
  induction l with
  | nil => intro L m hL _; exact ⟨L, hL, rfl⟩
  | cons c l ih =>
    intro L m hL hc
    rw [List.foldlM_cons]
    refine Ok.bind (hL.call hc.1) ?_
    rintro m' ⟨L', h1, h2⟩
    have := ih h1 (by rw [h2]; exact hc.2)
    rw [h2] at this
    exact this

theorem SonsLinked.new : SonsLinked ([] : List (Link A B)) Bimap.new :=
  ⟨rfl, rfl, by simp, by simp, by simp, by simp, by simp, by simp⟩

/-! ### Tree -/

section
variable {T : Type} [DecidableEq T]

/-- the counters of a tree are right -/
structure TreeOk (t : Tree T) (idx : List T) : Prop where
  sonc : t.sonc = idx.length
  idx : t.sons.map (·.index) = idx
  leaves : ∀ s ∈ t.sons, s.sonc = s.sons.length

theorem addLeaf_idx (f i : T) (l : List (Son T)) : (addLeaf f i l).map (·.index) = l.map (·.index) := by
  induction l with
  | nil => rfl
  | cons s l ih =>
    unfold addLeaf
    split
    · rfl
    · simp [ih]

theorem addLeaf_leaves (f i : T) (l : List (Son T)) (h : ∀ s ∈ l, s.sonc = s.sons.length) :
    ∀ s ∈ addLeaf f i l, s.sonc = s.sons.length := by
  induction l with
  | nil => intro s hs; cases hs
  | cons x l ih =>
    have hx := h x (by simp)
    intro s hs
    unfold addLeaf at hs
    split at hs
    · rcases List.mem_cons.1 hs with rfl | hs
      · simp [hx]
      · exact h s (by simp [hs])
    · rcases List.mem_cons.1 hs with rfl | hs
      · exact hx
      · exact ih (fun s hs => h s (by simp [hs])) s hs

theorem deleteSon_ok (v : T) (l : List (Son T)) (first : Bool)
    (h : ¬ (first = true ∧ l.map (·.index) = [v])) :
    Ok (deleteSon v first l) (fun r => r.2.map (·.index) = (l.map (·.index)).erase v ∧
      (∀ s ∈ r.2, s ∈ l) ∧ (r.1 = true ↔ v ∈ l.map (·.index))) := by
  induction l generalizing first with
  | nil => unfold deleteSon; simp
  | cons s l ih =>
    unfold deleteSon
    by_cases hs : s.index = v
    · rw [if_pos hs]
      have : ¬ (first = true ∧ l = []) := by
        rintro ⟨h1, h2⟩; exact h ⟨h1, by simp [h2, hs]⟩
      rw [if_neg this]
      refine ⟨?_, fun s hs => by simp [hs], ?_⟩
      · simp [hs]
      · simp [hs]
    · rw [if_neg hs]
      refine Ok.bind (ih false (by simp)) ?_
      rintro r ⟨h1, h2, h3⟩
      refine ⟨?_, ?_, ?_⟩
      · simp only [List.map_cons]
        rw [List.erase_cons_tail (by simpa using hs), h1]
      · intro x hx
        rcases List.mem_cons.1 hx with rfl | hx
        · simp
        · simp [h2 x hx]
      · simp only [h3, List.map_cons, List.mem_cons]
        constructor
        · exact Or.inr
        · rintro (e | h)
          · exact absurd e.symm hs
          · exact h

end

end CoMMA
