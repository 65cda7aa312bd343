import Verif.Model.Pairs
import Verif.Lemmas.Containers
import Mathlib.Data.List.Induction
/-! # Lemmas on the pair comparators and on ordered sets of pairs -/

namespace CoMMA

variable {W : Type} [Num W]

theorem LawfulLt.asymm (hW : LawfulLt W) {a b : W} (h : Num.lt a b = true) : Num.lt b a = false := by
  by_contra h'
  have h' : Num.lt b a = true := by simpa using h'
  have := hW.trans a b a h h'
  rw [hW.irrefl] at this; cases this

/-- reading of the comparator under a total order of the weights -/
theorem greaterPair_iff (hW : LawfulLt W) {l r : Nat × W} :
    greaterPair l r = true ↔ Num.lt r.2 l.2 = true ∨ (l.2 = r.2 ∧ l.1 < r.1) := by
  unfold greaterPair
  split
  · simp_all
  · rename_i h1
    simp only [Bool.not_eq_true] at h1
    split
    · rename_i h2
      constructor
      · simp
      · rintro (h | h)
        · simp_all
        · rw [h.1, hW.irrefl] at h2; cases h2
    · rename_i h2
      simp only [Bool.not_eq_true] at h2
      have := hW.total _ _ h1 h2
      simp [this, hW.irrefl]

theorem lessPair_iff (hW : LawfulLt W) {l r : Nat × W} :
    lessPair l r = true ↔ Num.lt l.2 r.2 = true ∨ (l.2 = r.2 ∧ r.1 < l.1) := by
  have : lessPair l r = greaterPair r l := rfl
  rw [this, greaterPair_iff hW]
  constructor
  · rintro (h | h)
    · exact Or.inl h
    · exact Or.inr ⟨h.1.symm, h.2⟩
  · rintro (h | h)
    · exact Or.inl h
    · exact Or.inr ⟨h.1.symm, h.2⟩

theorem greaterPair_irrefl (hW : LawfulLt W) (a : Nat × W) : greaterPair a a = false := by
  by_contra h
  have h : greaterPair a a = true := by simpa using h
  rw [greaterPair_iff hW] at h
  rcases h with h | h
  · rw [hW.irrefl] at h; cases h
  · omega

theorem greaterPair_trans (hW : LawfulLt W) {a b c : Nat × W} (h1 : greaterPair a b = true)
    (h2 : greaterPair b c = true) : greaterPair a c = true := by
  rw [greaterPair_iff hW] at *
  rcases h1 with h1 | ⟨h1, h1'⟩ <;> rcases h2 with h2 | ⟨h2, h2'⟩
  · exact Or.inl (hW.trans _ _ _ h2 h1)
  · exact Or.inl (h2 ▸ h1)
  · exact Or.inl (h1 ▸ h2)
  · exact Or.inr ⟨h1.trans h2, by omega⟩

theorem greaterPair_total (hW : LawfulLt W) {a b : Nat × W} (h1 : greaterPair a b = false)
    (h2 : greaterPair b a = false) : a = b := by
  have h1' : ¬ greaterPair a b = true := by simp [h1]
  have h2' : ¬ greaterPair b a = true := by simp [h2]
  rw [greaterPair_iff hW] at h1' h2'
  simp only [not_or, not_and, Bool.not_eq_true] at h1' h2'
  have hw := hW.total _ _ h1'.1 h2'.1
  have h3 := h1'.2 hw.symm
  have h4 := h2'.2 hw
  ext
  · omega
  · exact hw.symm

/-- equivalent pairs have the same index, whatever the weights are -/
theorem greaterPair_equiv {a b : Nat × W} (h1 : ¬ greaterPair a b = true)
    (h2 : ¬ greaterPair b a = true) : a.1 = b.1 := by
  unfold greaterPair at h1 h2
  split at h1
  · simp at h1
  · split at h1
    · rename_i h3; simp [h3] at h2
    · rename_i h3 h4
      simp [h3, h4] at h1 h2
      omega

/-- indices held by the set after an insertion (no law on weights needed) -/
theorem mem_firsts_pinsert {x : Nat × W} {s : List (Nat × W)} {a : Nat} :
    a ∈ firsts (pinsert x s) ↔ a = x.1 ∨ a ∈ firsts s := by
  unfold firsts
  induction s with
  | nil => simp [pinsert]
  | cons e es ih =>
    unfold pinsert
    split
    · simp only [List.map_cons, List.mem_cons, ih]; tauto
    · split
      · simp
      · rename_i h1 h2
        have := greaterPair_equiv h1 h2
        simp only [List.map_cons, List.mem_cons]
        rw [this]; tauto

theorem mem_pinsert_sub {x p : Nat × W} {s : List (Nat × W)} (h : p ∈ pinsert x s) : p = x ∨ p ∈ s := by
  induction s with
  | nil => simpa [pinsert] using h
  | cons e es ih =>
    unfold pinsert at h
    split at h
    · simp only [List.mem_cons] at h ⊢
      rcases h with h | h
      · simp [h]
      · rcases ih h with h | h <;> simp [h]
    · split at h
      · simp only [List.mem_cons] at h ⊢
        exact h
      · simp only [List.mem_cons] at h ⊢
        exact Or.inr h

theorem mem_pinsert (hW : LawfulLt W) {x p : Nat × W} {s : List (Nat × W)} :
    p ∈ pinsert x s ↔ p = x ∨ p ∈ s := by
  refine ⟨mem_pinsert_sub, ?_⟩
  induction s with
  | nil => simp [pinsert]
  | cons e es ih =>
    unfold pinsert
    split
    · simp only [List.mem_cons]
      rintro (h | h | h)
      · exact Or.inr (ih (Or.inl h))
      · exact Or.inl h
      · exact Or.inr (ih (Or.inr h))
    · split
      · simp
      · rename_i h1 h2
        simp only [Bool.not_eq_true] at h1 h2
        have := greaterPair_total hW h1 h2
        subst this
        simp

theorem pinsert_sorted (hW : LawfulLt W) {x : Nat × W} {s : List (Nat × W)}
    (h : s.Pairwise (fun a b => greaterPair a b = true)) :
    (pinsert x s).Pairwise (fun a b => greaterPair a b = true) := by
  induction s with
  | nil => simp [pinsert]
  | cons e es ih =>
    rw [List.pairwise_cons] at h
    unfold pinsert
    split
    · rename_i hex
      refine List.pairwise_cons.2 ⟨fun b hb => ?_, ih h.2⟩
      rcases mem_pinsert_sub hb with rfl | hb
      · exact hex
      · exact h.1 b hb
    · split
      · rename_i hxe
        rw [List.pairwise_cons, List.pairwise_cons]
        refine ⟨fun b hb => ?_, h.1, h.2⟩
        rcases List.mem_cons.1 hb with rfl | hb
        · exact hxe
        · exact greaterPair_trans hW hxe (h.1 b hb)
      · exact List.pairwise_cons.2 h

/-- two sorted sets with the same members are the same list -/
theorem pairs_ext (hW : LawfulLt W) {s t : List (Nat × W)}
    (hs : s.Pairwise (fun a b => greaterPair a b = true))
    (ht : t.Pairwise (fun a b => greaterPair a b = true))
    (h : ∀ p, p ∈ s ↔ p ∈ t) : s = t := by
  have hnd : ∀ {u : List (Nat × W)}, u.Pairwise (fun a b => greaterPair a b = true) → u.Nodup := by
    intro u hu
    refine hu.imp (fun {a b} h he => ?_)
    subst he
    rw [greaterPair_irrefl hW] at h; cases h
  have hp : s.Perm t := (List.perm_ext_iff_of_nodup (hnd hs) (hnd ht)).2 h
  refine hp.eq_of_pairwise ?_ hs ht
  intro a b _ _ h1 h2
  have := greaterPair_trans hW h1 h2
  rw [greaterPair_irrefl hW] at this; cases this

/-- set obtained by inserting the pairs `(i, w i)` one after the other -/
def psetOf (w : Nat → W) (l : List Nat) : List (Nat × W) :=
  l.foldl (fun s i => pinsert (i, w i) s) []

theorem psetOf_append (w : Nat → W) (l : List Nat) (i : Nat) :
    psetOf w (l ++ [i]) = pinsert (i, w i) (psetOf w l) := by
  simp [psetOf]

theorem mem_firsts_psetOf {w : Nat → W} {l : List Nat} {a : Nat} : a ∈ firsts (psetOf w l) ↔ a ∈ l := by
  induction l using List.reverseRecOn with
  | nil => simp [psetOf, firsts]
  | append_singleton l i ih => rw [psetOf_append, mem_firsts_pinsert, ih]; simp; tauto

theorem mem_psetOf_eq {w : Nat → W} {l : List Nat} {p : Nat × W} (h : p ∈ psetOf w l) : p.2 = w p.1 := by
  induction l using List.reverseRecOn with
  | nil => simp [psetOf] at h
  | append_singleton l i ih =>
    rw [psetOf_append] at h
    rcases mem_pinsert_sub h with rfl | h
    · rfl
    · exact ih h

theorem psetOf_sorted (hW : LawfulLt W) {w : Nat → W} {l : List Nat} :
    (psetOf w l).Pairwise (fun a b => greaterPair a b = true) := by
  induction l using List.reverseRecOn with
  | nil => simp [psetOf]
  | append_singleton l i ih => rw [psetOf_append]; exact pinsert_sorted hW ih

theorem firsts_psetOf_sorted (hW : LawfulLt W) {w : Nat → W} {l : List Nat} :
    (firsts (psetOf w l)).Pairwise (fun a b => Num.lt (w b) (w a) = true ∨ (w a = w b ∧ a < b)) := by
  unfold firsts
  rw [List.pairwise_map]
  refine (psetOf_sorted hW (w := w) (l := l)).imp_of_mem (fun {a b} ha hb h => ?_)
  rw [greaterPair_iff hW, mem_psetOf_eq ha, mem_psetOf_eq hb] at h
  exact h

theorem psetOf_perm (hW : LawfulLt W) {w : Nat → W} {l l' : List Nat} (h : ∀ a, a ∈ l ↔ a ∈ l') :
    psetOf w l = psetOf w l' := by
  refine pairs_ext hW (psetOf_sorted hW) (psetOf_sorted hW) (fun p => ?_)
  have key : ∀ l : List Nat, p ∈ psetOf w l ↔ (p.2 = w p.1 ∧ p.1 ∈ l) := by
    intro l
    constructor
    · intro hp
      exact ⟨mem_psetOf_eq hp, mem_firsts_psetOf.1 (List.mem_map.2 ⟨p, hp, rfl⟩)⟩
    · rintro ⟨h1, h2⟩
      obtain ⟨q, hq, hq'⟩ := List.mem_map.1 (mem_firsts_psetOf (w := w).2 h2)
      have := mem_psetOf_eq hq
      have : q = p := by ext; exact hq'; rw [this, h1, hq']
      exact this ▸ hq
  rw [key, key, h]

theorem firsts_psetOf_nodup (hW : LawfulLt W) {w : Nat → W} {l : List Nat} :
    (firsts (psetOf w l)).Nodup := by
  refine (firsts_psetOf_sorted hW).imp (fun {a b} h he => ?_)
  subst he
  rcases h with h | h
  · rw [hW.irrefl] at h; cases h
  · omega

end CoMMA
