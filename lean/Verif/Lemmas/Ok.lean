import Verif.Model.Core
import Mathlib.Tactic.Common
import Mathlib.Data.List.Basic
/-! # Reasoning rules for the outcome monad -/

namespace CoMMA

variable {α β γ : Type}

@[simp] theorem Ok_ok {a : α} {P : α → Prop} : Ok (.ok a : M α) P ↔ P a := Iff.rfl
@[simp] theorem Ok_pure {a : α} {P : α → Prop} : Ok (pure a : M α) P ↔ P a := Iff.rfl
@[simp] theorem Ok_error {e : Err} {P : α → Prop} : Ok (.error e : M α) P ↔ False := Iff.rfl
@[simp] theorem Ok_throw {e : Err} {P : α → Prop} : Ok (throw e : M α) P ↔ False := Iff.rfl

theorem Ok.mono {m : M α} {P Q : α → Prop} (h : Ok m P) (hi : ∀ a, P a → Q a) : Ok m Q := by
  cases m with
  | ok a => exact hi a h
  | error e => exact h

theorem Ok.and {m : M α} {P Q : α → Prop} (h : Ok m P) (h' : Ok m Q) : Ok m (fun a => P a ∧ Q a) := by
  cases m with
  | ok a => exact ⟨h, h'⟩
  | error e => exact h

theorem Ok.bind {m : M α} {f : α → M β} {P : α → Prop} {Q : β → Prop}
    (h : Ok m P) (hf : ∀ a, P a → Ok (f a) Q) : Ok (m >>= f) Q := by
  cases m with
  | ok a => exact hf a h
  | error e => exact h.elim

theorem Ok_iff {m : M α} {P : α → Prop} : Ok m P ↔ ∃ a, m = .ok a ∧ P a := by
  cases m with
  | ok a => simp
  | error e => simp

theorem Ok.eq {m : M α} {P : α → Prop} (h : Ok m P) : ∃ a, m = .ok a ∧ P a := Ok_iff.1 h

theorem Ok.of_eq {m : M α} {a : α} {P : α → Prop} (h : m = .ok a) (hp : P a) : Ok m P := by
  subst h; exact hp

/-- use a fact about the value of a call known to return -/
theorem Ok.elim {m : M α} {P : α → Prop} {a : α} (h : Ok m P) (e : m = .ok a) : P a := by
  subst e; exact h

@[simp] theorem ok_bind {a : α} {f : α → M β} : ((.ok a : M α) >>= f) = f a := rfl
@[simp] theorem error_bind {e : Err} {f : α → M β} : ((.error e : M α) >>= f) = .error e := rfl

theorem bind_ok_iff {m : M α} {f : α → M β} {b : β} :
    (m >>= f) = .ok b ↔ ∃ a, m = .ok a ∧ f a = .ok b := by
  cases m with
  | ok a => simp
  | error e => simp

theorem Ok_bind_iff {m : M α} {f : α → M β} {Q : β → Prop} :
    Ok (m >>= f) Q ↔ Ok m (fun a => Ok (f a) Q) := by
  cases m <;> simp

/-- fold rule; the invariant sees the part of the list already processed -/
theorem Ok.foldlM_prefix {f : β → α → M β} {l : List α} {b : β} {I : List α → β → Prop}
    (h0 : I [] b)
    (hs : ∀ pre a post b, l = pre ++ a :: post → I pre b → Ok (f b a) (I (pre ++ [a]))) :
    Ok (l.foldlM f b) (I l) := by
  suffices H : ∀ (post pre : List α) (b : β), l = pre ++ post → I pre b → Ok (post.foldlM f b) (I l) from
    H l [] b rfl h0
  intro post
  induction post with
  | nil => intro pre b hl hI; simp at hl; subst hl; simpa using hI
  | cons a post ih =>
    intro pre b hl hI
    rw [List.foldlM_cons]
    refine Ok.bind (hs pre a post b hl hI) (fun b' hb' => ?_)
    exact ih (pre ++ [a]) b' (by simp [hl]) hb'

/-- fold rule with a plain invariant -/
theorem Ok.foldlM {f : β → α → M β} {l : List α} {b : β} {I : β → Prop}
    (h0 : I b) (hs : ∀ a ∈ l, ∀ b, I b → Ok (f b a) I) : Ok (l.foldlM f b) I :=
  Ok.foldlM_prefix (I := fun _ => I) h0 (fun pre a post b hl hI => hs a (by simp [hl]) b hI)

theorem Ok.mapM {f : α → M β} {l : List α} {P : α → β → Prop}
    (h : ∀ a ∈ l, Ok (f a) (P a)) : Ok (l.mapM f) (fun r => List.Forall₂ P l r) := by
  induction l with
  | nil => exact .nil
  | cons a l ih =>
    rw [List.mapM_cons]
    refine Ok.bind (h a (by simp)) (fun b hb => ?_)
    refine Ok.bind (ih (fun x hx => h x (by simp [hx]))) (fun r hr => ?_)
    exact .cons hb hr

theorem rd_ok {v : List α} {i : Nat} {a : α} : rd v i = .ok a ↔ v[i]? = some a := by
  unfold rd; split <;> simp_all

theorem rd_of_lt {v : List α} {i : Nat} (h : i < v.length) : rd v i = .ok v[i] := by
  rw [rd_ok]; simp [h]

theorem Ok_rd {v : List α} {i : Nat} {P : α → Prop} (h : i < v.length) (hp : P v[i]) : Ok (rd v i) P := by
  rw [rd_of_lt h]; exact hp

theorem wr_of_lt {v : List α} {i : Nat} {a : α} (h : i < v.length) : wr v i a = .ok (v.set i a) := by
  simp [wr, h]

theorem assertM_true : assertM true = .ok () := rfl

theorem Ok_assertM {b : Bool} {P : Unit → Prop} (h : b = true) (hp : P ()) : Ok (assertM b) P := by
  subst h; exact hp

theorem Ok_valueM {o : Option α} {P : α → Prop} {a : α} (h : o = some a) (hp : P a) : Ok (valueM o) P := by
  subst h; exact hp

end CoMMA
