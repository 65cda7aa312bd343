import Verif.Lemmas.Ok
import Verif.Model.Containers
/-! # C73: what the outcomes of the model stand for

Theorems that a call gives `.ok` say something about memory only because each access of the model fails out of bounds. -/

namespace CoMMA

variable {α : Type}

/-- **C73** Elements of vectors are read and written inside of the bounds only: otherwise the outcome is undefined
behaviour; a write changes the one element. -/
theorem C73_accesses (v : List α) (i : Nat) (a : α) :
    (∀ (h : i < v.length), rd v i = .ok v[i] ∧ ∃ w, wr v i a = .ok w ∧ w.length = v.length ∧ w[i]? = some a ∧ ∀ j : Nat, j ≠ i → w[j]? = v[j]?) ∧
      (v.length ≤ i → rd v i = .error .ub ∧ wr v i a = .error .ub) := by
  constructor
  · intro h
    refine ⟨?_, v.set i a, ?_, by simp, by simp [h], ?_⟩
    · unfold rd
      rw [List.getElem?_eq_getElem h]
    · unfold wr
      rw [if_pos h]
    · intro j hj
      rw [List.getElem?_set_ne (Ne.symm hj)]
  · intro h
    refine ⟨?_, ?_⟩
    · unfold rd
      rw [List.getElem?_eq_none h]
    · unfold wr
      rw [if_neg (by omega)]

/-- **C73** Assertions that fail, values of empty optionals and absent keys are outcomes of their own, never a result. -/
theorem C73_failures : assertM false = .error .assertion ∧ assertM true = .ok () ∧ valueM (none : Option α) = .error .badOptional ∧
    (∀ a : α, valueM (some a) = .ok a) ∧ ∀ (m : NMap α) (k : Nat) (x : α), m.at! k = .ok x ↔ m.find? k = some x := by
  refine ⟨rfl, rfl, rfl, fun _ => rfl, ?_⟩
  intro m k x
  unfold NMap.at!
  cases h : m.find? k <;> simp

example := (C73_accesses [3, 4] 2 5).2 (by decide)
example := (C73_accesses [3, 4] 1 5).1 (by decide)

end CoMMA
