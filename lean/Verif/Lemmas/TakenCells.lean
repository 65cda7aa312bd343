import Verif.Spec.Columns
import Verif.Spec.Lines
/-! # How many cells of a line are taken -/

namespace CoMMA

theorem Pairs.total {odd : Bool} {limit : Option Int} {k : Nat} {l : List Nat} {groups : List (List Nat)} (h : Pairs odd limit k l groups) :
    k % 2 = 0 → l.length ≠ 1 → (∀ m, limit = some m → k = 0 ∨ ((k : Int) ≤ m ∧ m ≠ k + 1)) →
    k + groups.flatten.length = takenCells odd limit (k + l.length) ∧
      groups.length * 2 + k = takenCells odd limit (k + l.length) / 2 * 2 := by
  induction h with
  | @done n =>
    intro h1 h2 h3
    unfold takenCells
    cases limit with
    | none => cases odd <;> simp <;> omega
    | some m =>
      have := h3 m rfl
      cases odd <;> simp only [List.flatten_nil, List.length_nil, Nat.add_zero, Bool.false_eq_true, if_false, if_true] <;>
        (split_ifs <;> omega)
  | @full n l hr =>
    intro h1 h2 h3
    cases limit with
    | none => exact absurd (fun m h => nomatch h) hr
    | some m =>
      have h4 : ¬ (n : Int) + 2 ≤ m := fun h => hr (fun m' h' => by cases h'; exact h)
      have := h3 m rfl
      unfold takenCells
      cases odd <;> simp only [List.flatten_nil, List.length_nil, Nat.add_zero, Bool.false_eq_true, if_false, if_true] <;>
        (split_ifs <;> omega)
  | @three n x y z l hr hl ho =>
    intro h1 h2 h3
    subst ho
    unfold takenCells
    cases limit with
    | none =>
      have : l.length + 3 = 3 := by
        rcases hl with h | h
        · exact h
        · cases h
      simp only [if_true, List.flatten_cons, List.flatten_nil, List.append_nil, List.length_cons, List.length_nil]
      omega
    | some m =>
      have h4 := hr m rfl
      have h5 : l.length + 3 = 3 ∨ m = n + 3 := by
        rcases hl with h | h
        · exact Or.inl h
        · exact Or.inr (Option.some.inj h)
      simp only [if_true, List.flatten_cons, List.flatten_nil, List.append_nil, List.length_cons, List.length_nil]
      have := h3 m rfl
      split_ifs <;> omega
  | @last n x y z l hr hl ho =>
    intro h1 h2 h3
    subst ho
    unfold takenCells
    cases limit with
    | none =>
      have : l.length + 3 = 3 := by
        rcases hl with h | h
        · exact h
        · cases h
      simp only [Bool.false_eq_true, if_false, List.flatten_cons, List.flatten_nil, List.append_nil, List.length_cons, List.length_nil]
      omega
    | some m =>
      have h4 := hr m rfl
      have h5 : l.length + 3 = 3 ∨ m = n + 3 := by
        rcases hl with h | h
        · exact Or.inl h
        · exact Or.inr (Option.some.inj h)
      simp only [Bool.false_eq_true, if_false, List.flatten_cons, List.flatten_nil, List.append_nil, List.length_cons, List.length_nil]
      have := h3 m rfl
      split_ifs <;> omega
  | @two n x y l groups hr hl _ ih =>
    intro h1 h2 h3
    have h4 : l.length ≠ 1 := fun h => hl (Or.inl (by omega))
    obtain ⟨e1, e2⟩ := ih (by omega) h4 (fun m hm => by
      have h5 := hr m hm
      refine Or.inr ⟨by push_cast; omega, fun h => hl (Or.inr ?_)⟩
      rw [hm, h]
      push_cast
      congr 1)
    have e3 : n + (x :: y :: l).length = n + 2 + l.length := by simp; omega
    rw [e3, ← e1]
    rw [← e1] at e2
    simp only [List.flatten_cons, List.length_append, List.length_cons, List.length_nil]
    omega

end CoMMA
