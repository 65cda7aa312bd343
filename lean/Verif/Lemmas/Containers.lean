import Verif.Model.Containers
import Verif.Lemmas.Ok
import Mathlib.Data.List.Perm.Basic
import Mathlib.Data.List.Nodup
import Mathlib.Data.List.Lattice
/-! # Lemmas on the container models -/

namespace CoMMA

theorem sorted_ext {l₁ l₂ : List Nat} (h₁ : l₁.Pairwise (· < ·)) (h₂ : l₂.Pairwise (· < ·))
    (h : ∀ a, a ∈ l₁ ↔ a ∈ l₂) : l₁ = l₂ := by
  induction l₁ generalizing l₂ with
  | nil =>
    cases l₂ with
    | nil => rfl
    | cons b _ => exact absurd ((h b).2 (by simp)) (by simp)
  | cons a t ih =>
    cases l₂ with
    | nil => exact absurd ((h a).1 (by simp)) (by simp)
    | cons b u =>
      rw [List.pairwise_cons] at h₁ h₂
      have hab : a = b := by
        have h3 := (h a).1 (by simp)
        have h4 := (h b).2 (by simp)
        rcases List.mem_cons.1 h3 with h3 | h3
        · exact h3
        · rcases List.mem_cons.1 h4 with h4 | h4
          · exact h4.symm
          · have := h₂.1 a h3; have := h₁.1 b h4; omega
      subst hab
      congr 1
      refine ih h₁.2 h₂.2 (fun x => ?_)
      constructor
      · intro hx
        rcases List.mem_cons.1 ((h x).1 (by simp [hx])) with h5 | h5
        · have := h₁.1 x hx; omega
        · exact h5
      · intro hx
        rcases List.mem_cons.1 ((h x).2 (by simp [hx])) with h5 | h5
        · have := h₂.1 x hx; omega
        · exact h5

namespace NSet

theorem mem_def {a : Nat} {s : NSet} : a ∈ s ↔ a ∈ s.elems := Iff.rfl

theorem ext {s t : NSet} (h : ∀ a, a ∈ s ↔ a ∈ t) : s = t := by
  cases s with | mk l hl => cases t with | mk l' hl' =>
    have : l = l' := sorted_ext hl hl' h
    subst this; rfl

theorem nodup (s : NSet) : s.elems.Nodup := s.sorted.imp (fun h => Nat.ne_of_lt h)

@[simp] theorem mem_elems {a : Nat} {s : NSet} : a ∈ s.elems ↔ a ∈ s := Iff.rfl
@[simp] theorem not_mem_empty {a : Nat} : ¬ a ∈ (empty : NSet) := by simp [mem_def, empty]
@[simp] theorem mem_insert {a x : Nat} {s : NSet} : a ∈ s.insert x ↔ a = x ∨ a ∈ s := mem_insertL
@[simp] theorem mem_erase {a x : Nat} {s : NSet} : a ∈ s.erase x ↔ a ∈ s ∧ a ≠ x := by
  show a ∈ s.elems.filter _ ↔ _
  simp
@[simp] theorem mem_insertMany {a : Nat} {l : List Nat} {s : NSet} :
    a ∈ s.insertMany l ↔ a ∈ l ∨ a ∈ s := by
  unfold insertMany
  induction l generalizing s with
  | nil => simp
  | cons x l ih =>
    rw [List.foldl_cons, ih]; simp only [mem_insert, List.mem_cons]; tauto
@[simp] theorem mem_ofList {a : Nat} {l : List Nat} : a ∈ ofList l ↔ a ∈ l := by
  simp [ofList]
@[simp] theorem mem_single {a x : Nat} : a ∈ single x ↔ a = x := by simp [single]
@[simp] theorem has_iff {a : Nat} {s : NSet} : s.has a = true ↔ a ∈ s := by simp [has]
theorem has_false_iff {a : Nat} {s : NSet} : s.has a = false ↔ ¬ a ∈ s := by simp [has]

theorem insert_of_mem {x : Nat} {s : NSet} (h : x ∈ s) : s.insert x = s :=
  ext (fun a => by simp; rintro rfl; exact h)

theorem card_perm {s : NSet} {l : List Nat} (hn : l.Nodup) (h : ∀ a, a ∈ s ↔ a ∈ l) :
    s.card = l.length := by
  have : s.elems.Perm l := (List.perm_ext_iff_of_nodup s.nodup hn).2 h
  exact this.length_eq

theorem elems_perm {s : NSet} {l : List Nat} (hn : l.Nodup) (h : ∀ a, a ∈ s ↔ a ∈ l) :
    s.elems.Perm l := (List.perm_ext_iff_of_nodup s.nodup hn).2 h

theorem card_insert {x : Nat} {s : NSet} (h : ¬ x ∈ s) : (s.insert x).card = s.card + 1 := by
  have := card_perm (s := s.insert x) (l := x :: s.elems) (List.nodup_cons.2 ⟨h, s.nodup⟩)
    (by simp)
  simpa [card] using this

theorem card_ofList {l : List Nat} (h : l.Nodup) : (ofList l).card = l.length :=
  card_perm h (by simp)

@[simp] theorem card_empty : (empty : NSet).card = 0 := rfl
@[simp] theorem card_single {x : Nat} : (single x).card = 1 := rfl

theorem card_le_of_subset {s t : NSet} (h : ∀ a, a ∈ s → a ∈ t) : s.card ≤ t.card :=
  (List.subperm_of_subset s.nodup h).length_le

theorem card_pos_iff {s : NSet} : 0 < s.card ↔ ∃ a, a ∈ s := by
  unfold card
  rw [List.length_pos_iff_exists_mem]
  rfl

theorem card_lt_of_ssubset {s t : NSet} (h : ∀ a, a ∈ s → a ∈ t) {x : Nat} (hx : x ∈ t) (hx' : ¬ x ∈ s) :
    s.card < t.card := by
  have : (s.insert x).card ≤ t.card := card_le_of_subset (by
    intro a ha; rcases mem_insert.1 ha with rfl | ha
    · exact hx
    · exact h a ha)
  rw [card_insert hx'] at this; omega

theorem card_erase {x : Nat} {s : NSet} (h : x ∈ s) : (s.erase x).card + 1 = s.card := by
  have h1 : ¬ x ∈ s.erase x := by simp
  have h2 := card_insert h1
  have h3 : (s.erase x).insert x = s := ext (fun a => by
    simp only [mem_insert, mem_erase]
    constructor
    · rintro (rfl | h') <;> simp_all
    · intro ha; by_cases hax : a = x <;> simp_all)
  rw [h3] at h2; omega

theorem eq_of_subset_of_card {s t : NSet} (h : ∀ a, a ∈ s → a ∈ t) (hc : t.card ≤ s.card) : s = t := by
  apply ext
  intro a
  refine ⟨h a, fun ha => ?_⟩
  by_contra hn
  have := card_lt_of_ssubset h ha hn
  omega

theorem insertMany_perm {s : NSet} {l l' : List Nat} (h : l.Perm l') :
    s.insertMany l = s.insertMany l' := ext (fun a => by simp [h.mem_iff])

end NSet

theorem lookup_cons_if {V : Type} {k : Nat} {v : V} {l : List (Nat × V)} {j : Nat} :
    ((k, v) :: l).lookup j = if j = k then some v else l.lookup j := by
  rw [List.lookup_cons]
  by_cases h : j = k
  · simp [h]
  · have : (j == k) = false := by simp [h]
    simp [this, h]

theorem lookup_insertKV {V : Type} {k : Nat} {v : V} {l : List (Nat × V)} {j : Nat} :
    (insertKV k v l).lookup j = if j = k then some v else l.lookup j := by
  induction l with
  | nil => rw [insertKV, lookup_cons_if]
  | cons q r ih =>
    obtain ⟨k', v'⟩ := q
    unfold insertKV
    split
    · rw [lookup_cons_if]
    · split
      · rename_i h; subst h
        simp only [lookup_cons_if]
        split <;> rfl
      · simp only [lookup_cons_if, ih]
        by_cases h : j = k'
        · subst h
          have : j ≠ k := by omega
          simp [this]
        · simp [h]

theorem lookup_eq_some_iff {V : Type} {l : List (Nat × V)} (hs : l.Pairwise (fun a b => a.1 < b.1))
    {k : Nat} {v : V} : l.lookup k = some v ↔ (k, v) ∈ l := by
  induction l with
  | nil => simp
  | cons q r ih =>
    obtain ⟨k', v'⟩ := q
    rw [List.pairwise_cons] at hs
    simp only [List.lookup_cons, List.mem_cons, Prod.mk.injEq]
    by_cases h : k = k'
    · subst h
      simp only [beq_self_eq_true, Option.some.injEq]
      constructor
      · rintro rfl; simp
      · rintro (h | h)
        · exact h.2.symm
        · have := hs.1 _ h; simp at this
    · have : (k == k') = false := by simp [h]
      simp [this, ih hs.2, h]

namespace NMap
variable {V : Type}

theorem find?_eq_some {m : NMap V} {k : Nat} {v : V} : m.find? k = some v ↔ (k, v) ∈ m.entries :=
  lookup_eq_some_iff m.sorted

@[simp] theorem find?_empty {k : Nat} : (empty : NMap V).find? k = none := rfl

theorem find?_insert {m : NMap V} {k j : Nat} {v : V} :
    (m.insert k v).find? j = if j = k then some v else m.find? j := lookup_insertKV

theorem find?_erase {m : NMap V} {k j : Nat} :
    (m.erase k).find? j = if j = k then none else m.find? j := by
  apply Option.ext
  intro v
  rw [find?_eq_some]
  simp only [erase, List.mem_filter]
  by_cases h : j = k
  · simp [h]
  · rw [if_neg h, find?_eq_some]; simp [h]

theorem ext_entries {m m' : NMap V} (h : m.entries = m'.entries) : m = m' := by
  cases m; cases m'; simp_all

theorem keys_sorted (m : NMap V) : m.keys.Pairwise (· < ·) := List.pairwise_map.2 m.sorted

theorem mem_keys {m : NMap V} {k : Nat} : k ∈ m.keys ↔ ∃ v, m.find? k = some v := by
  simp only [keys, List.mem_map, find?_eq_some]
  constructor
  · rintro ⟨⟨k', v⟩, h, rfl⟩; exact ⟨v, h⟩
  · rintro ⟨v, h⟩; exact ⟨(k, v), h, rfl⟩

theorem has_iff {m : NMap V} {k : Nat} : m.has k = true ↔ k ∈ m.keys := by
  rw [mem_keys, has, Option.isSome_iff_exists]

theorem has_false_iff {m : NMap V} {k : Nat} : m.has k = false ↔ ¬ k ∈ m.keys := by
  rw [← has_iff]; simp

theorem find?_eq_none {m : NMap V} {k : Nat} : m.find? k = none ↔ ¬ k ∈ m.keys := by
  rw [mem_keys]; cases m.find? k <;> simp

theorem keys_nodup (m : NMap V) : m.keys.Nodup := m.keys_sorted.imp (fun h => Nat.ne_of_lt h)

theorem entries_nodup (m : NMap V) : m.entries.Nodup := m.sorted.imp (fun h he => by
  subst he; exact absurd h (Nat.lt_irrefl _))

theorem ext {m m' : NMap V} (h : ∀ k, m.find? k = m'.find? k) : m = m' := by
  apply ext_entries
  have hp : m.entries.Perm m'.entries := by
    rw [List.perm_ext_iff_of_nodup m.entries_nodup m'.entries_nodup]
    rintro ⟨k, v⟩
    rw [← find?_eq_some, ← find?_eq_some, h]
  refine hp.eq_of_pairwise (le := fun a b => a.1 < b.1) ?_ m.sorted m'.sorted
  intro a b _ _ h1 h2
  exact absurd h1 (by omega)

@[simp] theorem mem_keySet {m : NMap V} {k : Nat} : k ∈ m.keySet ↔ k ∈ m.keys := Iff.rfl
@[simp] theorem card_keySet {m : NMap V} : m.keySet.card = m.size := by
  simp [keySet, NSet.card, keys, size]

theorem size_eq_keys {m : NMap V} : m.size = m.keys.length := by simp [size, keys]

theorem mem_keys_insert {m : NMap V} {k j : Nat} {v : V} : j ∈ (m.insert k v).keys ↔ j = k ∨ j ∈ m.keys := by
  rw [mem_keys, mem_keys, find?_insert]
  by_cases h : j = k <;> simp [h]

theorem mem_keys_erase {m : NMap V} {k j : Nat} : j ∈ (m.erase k).keys ↔ j ∈ m.keys ∧ j ≠ k := by
  rw [mem_keys, mem_keys, find?_erase]
  by_cases h : j = k <;> simp [h]

theorem keySet_insert {m : NMap V} {k : Nat} {v : V} : (m.insert k v).keySet = m.keySet.insert k :=
  NSet.ext (fun a => by simp [mem_keys_insert])

theorem size_insert_new {m : NMap V} {k : Nat} {v : V} (h : ¬ k ∈ m.keys) :
    (m.insert k v).size = m.size + 1 := by
  rw [← card_keySet, keySet_insert, NSet.card_insert h, card_keySet]

theorem at_eq {m : NMap V} {k : Nat} {v : V} : m.at! k = .ok v ↔ m.find? k = some v := by
  unfold at!; split <;> simp_all

end NMap

end CoMMA
