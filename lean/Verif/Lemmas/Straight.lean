import Verif.Lemmas.LineSpec
import Verif.Spec.Straight
/-! # Lines that do not bend: the directions kept while growing -/

set_option linter.unusedSectionVars false

namespace CoMMA

variable {W : Type} [Num W] {R : Nat → Nat → Nat → Prop}

theorem Triples.cons {x : Nat} {l : List Nat} (h : Triples R l)
    (hx : ∀ y z r, l = y :: z :: r → R x y z) : Triples R (x :: l) := by
  intro k u v w hu hv hw
  cases k with
  | zero =>
    simp only [List.getElem?_cons_zero, Option.some.injEq] at hu
    subst hu
    match l, hv, hw with
    | y :: z :: r, hv, hw =>
      simp only [Nat.zero_add, List.getElem?_cons_succ, List.getElem?_cons_zero, Option.some.injEq] at hv hw
      subst hv hw
      exact hx y z r rfl
    | [_], _, hw => simp at hw
    | [], hv, _ => simp at hv
  | succ k => exact h k u v w (by simpa using hu) (by simpa using hv) (by simpa using hw)

theorem Triples.tail {x : Nat} {l : List Nat} (h : Triples R (x :: l)) : Triples R l := by
  intro k u v w hu hv hw
  exact h (k + 1) u v w (by simpa using hu) (by simpa using hv) (by simpa using hw)

theorem Triples.mono {R' : Nat → Nat → Nat → Prop} {l : List Nat} (h : Triples R l) (hR : ∀ u v w, R u v w → R' u v w) :
    Triples R' l := fun k u v w hu hv hw => hR _ _ _ (h k u v w hu hv hw)

/-- two branches starting from the same cell, joined -/
theorem Triples.reverse_append : ∀ (back : List Nat) (p : Nat) (l : List Nat),
    Triples (fun u v w => R w v u) (p :: back) → Triples R (p :: l) →
      (∀ y ys x xs, back = y :: ys → l = x :: xs → R y p x) → Triples R (back.reverse ++ p :: l) := by
  intro back
  induction back with
  | nil => intro p l _ h _; simpa using h
  | cons y ys ih =>
    intro p l hb hl hj
    rw [List.reverse_cons, List.append_assoc, List.singleton_append]
    refine ih y (p :: l) hb.tail (hl.cons ?_) ?_
    · intro y' z r e
      cases e
      exact hj y ys z r rfl rfl
    · intro z zs x xs hz hx
      cases hx
      exact hb 0 p y z (by simp) (by simp) (by simp [hz])

variable {g : Graph W} {coupling : Coupling}

theorem NextCell.ahead {free : Nat → Prop} {d : List W} {i x : Nat} (h : NextCell g coupling true free (some d) i (some x)) :
    ∃ c, Ahead g d i x c := by
  cases h with
  | strongest h _ => rcases h with h | h <;> cases h
  | straight _ h => obtain ⟨c, ⟨_, _, h⟩, _⟩ := h; exact ⟨c, h⟩
  | loose _ _ h => obtain ⟨c, ⟨_, _, h⟩, _⟩ := h; exact ⟨c, h⟩

/-- the first step of a walk continues the given direction -/
theorem LineWalk.first {free : Nat → Prop} {d : List W} {i x : Nat} {xs : List Nat}
    (h : LineWalk g coupling true free (some d) i (x :: xs)) : ∃ c, Ahead g d i x c := by
  cases h with
  | step hn _ _ => exact hn.ahead

/-- the steps of a walk continue one another -/
theorem LineWalk.goesOn {force : Bool} {free : Nat → Prop} {d : Option (List W)} {i : Nat} {ys : List Nat}
    (h : LineWalk g coupling force free d i ys) (hf : force = true) : Triples (GoesOn g) (i :: ys) := by
  induction h with
  | stop _ => intro k u v w _ hv; simp at hv
  | step _ hd hw ih =>
    subst hf
    refine ih.cons ?_
    intro y z r e
    cases e
    exact ⟨_, hd, hw.first⟩

theorem LineFrom.straight {free : Nat → Prop} {p : Nat} {l : List Nat} (h : LineFrom g coupling true free p l) :
    Triples (StraightOn g) l := by
  cases h with
  | alone h => exact (h.goesOn rfl).mono (fun _ _ _ => Or.inl)
  | both h1 hd h2 =>
    refine Triples.reverse_append _ _ _ ((h2.goesOn rfl).mono (fun _ _ _ h => Or.inr (Or.inl h)))
      ((h1.goesOn rfl).mono (fun _ _ _ => Or.inl)) ?_
    intro y ys x xs hy hx
    cases hx
    subst hy
    exact Or.inr (Or.inr ⟨_, hd, h2.first⟩)

theorem LinesFrom.straight {force : Bool} {free : Nat → Prop} {seeds : List Nat} {ls : List (List Nat)}
    (h : LinesFrom g coupling force free seeds ls) (hf : force = true) : ∀ l ∈ ls, Triples (StraightOn g) l := by
  subst hf
  induction h with
  | done => simp
  | taken _ _ ih => exact ih
  | single _ _ _ ih => exact ih
  | line _ hl _ _ ih =>
    intro l hm
    rcases List.mem_cons.1 hm with rfl | hm
    · exact hl.straight
    · exact ih l hm

end CoMMA
