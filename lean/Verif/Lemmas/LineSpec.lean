import Verif.Lemmas.LineData
import Verif.Spec.Pool
/-! # Consequences of the specification of lines -/

set_option linter.unusedSectionVars false

namespace CoMMA

variable {W : Type} [Num W]

/-! ## Consequences of the specification -/

theorem NextCell.strong {g : Graph W} {coupling : Coupling} {free : Nat → Prop} {d : Option (List W)} {i x : Nat}
    (h : NextCell g coupling false free d i (some x)) : free x ∧ ∃ w, StrongCoupling g coupling i x w := by
  cases h with
  | strongest _ h =>
    obtain ⟨w, ⟨h1, h2⟩, _⟩ := h
    exact ⟨h1, w, h2⟩
  | straight h => cases h
  | loose h => cases h

/-- `u` and `v` are strongly coupled, seen from one of them -/
def Linked (g : Graph W) (coupling : Coupling) (u v : Nat) : Prop :=
  (∃ w, StrongCoupling g coupling u v w) ∨ ∃ w, StrongCoupling g coupling v u w

theorem Linked.symm {g : Graph W} {coupling : Coupling} {u v : Nat} (h : Linked g coupling u v) : Linked g coupling v u :=
  h.elim Or.inr Or.inl

/-- consecutive elements of a list are related -/
def Consecutive (R : Nat → Nat → Prop) (l : List Nat) : Prop :=
  ∀ (k u v : Nat), l[k]? = some u → l[k + 1]? = some v → R u v

theorem Consecutive.cons {R : Nat → Nat → Prop} {x : Nat} {l : List Nat} (h : Consecutive R l)
    (hx : ∀ y, l.head? = some y → R x y) : Consecutive R (x :: l) := by
  intro k u v hu hv
  cases k with
  | zero =>
    simp at hu
    subst hu
    apply hx
    rw [List.head?_eq_getElem?]
    simpa using hv
  | succ k => exact h k u v (by simpa using hu) (by simpa using hv)

theorem Consecutive.reverse_append {R : Nat → Nat → Prop} (hs : ∀ u v, R u v → R v u) :
    ∀ (back : List Nat) (p : Nat) (l : List Nat), Consecutive R (p :: back) → Consecutive R (p :: l) →
      Consecutive R (back.reverse ++ p :: l) := by
  intro back
  induction back with
  | nil => intro p l _ h; simpa using h
  | cons y ys ih =>
    intro p l hb hl
    rw [List.reverse_cons, List.append_assoc, List.singleton_append]
    refine ih y (p :: l) ?_ (hl.cons ?_)
    · intro k u v hu hv
      exact hb (k + 1) u v (by simpa using hu) (by simpa using hv)
    · intro z hz
      simp at hz
      subst hz
      exact hs _ _ (hb 0 p y (by simp) (by simp))

theorem LineWalk.linked {g : Graph W} {coupling : Coupling} {force : Bool} {free : Nat → Prop} {d : Option (List W)} {i : Nat} {ys : List Nat}
    (h : LineWalk g coupling force free d i ys) (hf : force = false) : Consecutive (Linked g coupling) (i :: ys) := by
  induction h with
  | stop _ => intro k u v _ hv; simp at hv
  | step hn _ _ ih =>
    refine ih.cons ?_
    intro y hy
    simp at hy
    subst hy hf
    exact Or.inl hn.strong.2

theorem LineFrom.linked {g : Graph W} {coupling : Coupling} {free : Nat → Prop} {p : Nat} {l : List Nat}
    (h : LineFrom g coupling false free p l) : Consecutive (Linked g coupling) l := by
  cases h with
  | alone h => exact h.linked rfl
  | both h1 _ h2 => exact Consecutive.reverse_append (fun _ _ => Linked.symm) _ _ _ (h2.linked rfl) (h1.linked rfl)

theorem LinesFrom.linked {g : Graph W} {coupling : Coupling} {force : Bool} {free : Nat → Prop} {seeds : List Nat} {ls : List (List Nat)}
    (h : LinesFrom g coupling force free seeds ls) (hf : force = false) : ∀ l ∈ ls, Consecutive (Linked g coupling) l := by
  subst hf
  induction h with
  | done => simp
  | taken _ _ ih => exact ih
  | single _ _ _ ih => exact ih
  | line _ hl _ _ ih =>
    intro l hm
    rcases List.mem_cons.1 hm with rfl | hm
    · exact hl.linked
    · exact ih l hm

theorem LineFrom.mem {g : Graph W} {coupling : Coupling} {force : Bool} {free : Nat → Prop} {p : Nat} {l : List Nat}
    (h : LineFrom g coupling force free p l) : p ∈ l := by
  cases h <;> simp

theorem LineFrom.single {g : Graph W} {coupling : Coupling} {force : Bool} {free : Nat → Prop} {p : Nat}
    (h : LineFrom g coupling force free p [p]) : NoneOf (ByCoupling g coupling (fun n => free n ∧ n ≠ p) p) := by
  generalize hl : [p] = l at h
  cases h with
  | alone h =>
    cases h with
    | stop h =>
      cases h with
      | noStrong _ h => exact h
  | both _ _ _ =>
    have := congrArg List.length hl
    simp at this
    omega

theorem LinesFrom.pair {g : Graph W} {coupling : Coupling} {force : Bool} {free : Nat → Prop} {seeds : List Nat} {ls : List (List Nat)}
    (h : LinesFrom g coupling force free seeds ls) {i j : Nat} (hij : i ≠ j) (hi : i ∈ seeds) (hj : j ∈ seeds) (fi : free i) (fj : free j)
    (h1 : ∃ w, StrongCoupling g coupling i j w) (h2 : ∃ w, StrongCoupling g coupling j i w) :
    i ∈ ls.flatten ∨ j ∈ ls.flatten := by
  induction h with
  | done => simp at hi
  | @taken free p rest ls hp _ ih =>
    have e1 : i ≠ p := fun e => hp (e ▸ fi)
    have e2 : j ≠ p := fun e => hp (e ▸ fj)
    exact ih (by simpa [e1] using hi) (by simpa [e2] using hj) fi fj
  | @single free p rest ls hp hl _ ih =>
    have hno := hl.single
    have e1 : i ≠ p := by
      rintro rfl
      obtain ⟨w, hw⟩ := h1
      exact hno j w ⟨⟨fj, Ne.symm hij⟩, hw⟩
    have e2 : j ≠ p := by
      rintro rfl
      obtain ⟨w, hw⟩ := h2
      exact hno i w ⟨⟨fi, hij⟩, hw⟩
    exact ih (by simpa [e1] using hi) (by simpa [e2] using hj) ⟨fi, e1⟩ ⟨fj, e2⟩
  | @line free p rest l ls hp hl _ _ ih =>
    by_cases hil : i ∈ l
    · left; simp [hil]
    · by_cases hjl : j ∈ l
      · right; simp [hjl]
      · have e1 : i ≠ p := fun e => hil (e ▸ hl.mem)
        have e2 : j ≠ p := fun e => hjl (e ▸ hl.mem)
        rw [List.flatten_cons, List.mem_append, List.mem_append]
        exact (ih (by simpa [e1] using hi) (by simpa [e2] using hj) ⟨fi, hil⟩ ⟨fj, hjl⟩).imp Or.inr Or.inr

/-! ## The specification determines the lines -/

theorem BestOf.unique {R : Nat → W → Prop} {x y : Nat} (hx : BestOf R x) (hy : BestOf R y) : x = y := by
  obtain ⟨w, h1, h2⟩ := hx
  obtain ⟨v, h3, h4⟩ := hy
  obtain ⟨a1, a2⟩ := h2 y v h3
  obtain ⟨b1, b2⟩ := h4 x w h1
  rcases a2 with a2 | a2
  · rw [a2] at b1; cases b1
  · rcases b2 with b2 | b2
    · rw [b2] at a1; cases a1
    · omega

theorem BestOf.not_none {R : Nat → W → Prop} {x : Nat} (hx : BestOf R x) (hn : NoneOf R) : False := by
  obtain ⟨w, h1, _⟩ := hx
  exact hn x w h1

theorem NextCell.unique (hW : LawfulLt W) {g : Graph W} {coupling : Coupling} {force : Bool} {free : Nat → Prop}
    {d : Option (List W)} {i : Nat} {r r' : Option Nat} (h : NextCell g coupling force free d i r)
    (h' : NextCell g coupling force free d i r') : r = r' := by
  cases h with
  | strongest hc hb =>
    cases h' with
    | strongest hc' hb' => rw [hb.unique hb']
    | noStrong hc' hn' => exact (hb.not_none hn').elim
    | straight hf _ => rcases hc with hc | hc <;> simp_all
    | loose hf _ _ => rcases hc with hc | hc <;> simp_all
    | noWay hf _ _ => rcases hc with hc | hc <;> simp_all
  | noStrong hc hn =>
    cases h' with
    | strongest hc' hb' => exact (hb'.not_none hn).elim
    | noStrong hc' hn' => rfl
    | straight hf _ => rcases hc with hc | hc <;> simp_all
    | loose hf _ _ => rcases hc with hc | hc <;> simp_all
    | noWay hf _ _ => rfl
  | straight hf hb =>
    cases h' with
    | strongest hc' hb' => rcases hc' with hc | hc <;> simp_all
    | noStrong hc' hn' => rcases hc' with hc | hc <;> simp_all
    | straight _ hb' => rw [hb.unique hb']
    | loose _ hn _ => exact (hb.not_none hn).elim
    | noWay _ hn _ => exact (hb.not_none hn).elim
  | loose hf hn hb =>
    cases h' with
    | strongest hc' hb' => rcases hc' with hc | hc <;> simp_all
    | noStrong hc' hn' => rcases hc' with hc | hc <;> simp_all
    | straight _ hb' => exact (hb'.not_none hn).elim
    | loose _ _ hb' => rw [hb.unique hb']
    | noWay _ _ hn' => exact (hb.not_none hn').elim
  | noWay hf hn hn2 =>
    cases h' with
    | strongest hc' hb' => rcases hc' with hc | hc <;> simp_all
    | noStrong hc' hn' => rfl
    | straight _ hb' => exact (hb'.not_none hn).elim
    | loose _ _ hb' => exact (hb'.not_none hn2).elim
    | noWay _ _ hn' => rfl

theorem LineWalk.unique (hW : LawfulLt W) {g : Graph W} {coupling : Coupling} {force : Bool} {free : Nat → Prop}
    {d : Option (List W)} {i : Nat} {ys ys' : List Nat} (h : LineWalk g coupling force free d i ys)
    (h' : LineWalk g coupling force free d i ys') : ys = ys' := by
  induction h generalizing ys' with
  | stop hn =>
    cases h' with
    | stop _ => rfl
    | step hn' _ _ => cases hn.unique hW hn'
  | step hn hd _ ih =>
    cases h' with
    | stop hn' => cases hn.unique hW hn'
    | step hn' hd' hw' =>
      cases hn.unique hW hn'
      cases hd.unique hd'
      rw [ih hw']

theorem LineFrom.unique (hW : LawfulLt W) {g : Graph W} {coupling : Coupling} {force : Bool} {free : Nat → Prop}
    {p : Nat} {l l' : List Nat} (h : LineFrom g coupling force free p l) (h' : LineFrom g coupling force free p l') : l = l' := by
  cases h with
  | alone h =>
    cases h' with
    | alone _ => rfl
    | both h' _ _ => cases h.unique hW h'
  | both h hd hb =>
    cases h' with
    | alone h' => cases h.unique hW h'
    | both h' hd' hb' =>
      cases h.unique hW h'
      cases hd.unique hd'
      cases hb.unique hW hb'
      rfl

theorem LinesFrom.unique (hW : LawfulLt W) {g : Graph W} {coupling : Coupling} {force : Bool} {free : Nat → Prop}
    {seeds : List Nat} {ls ls' : List (List Nat)} (h : LinesFrom g coupling force free seeds ls)
    (h' : LinesFrom g coupling force free seeds ls') : ls = ls' := by
  induction h generalizing ls' with
  | done => cases h'; rfl
  | taken hp _ ih =>
    cases h' with
    | taken _ h' => exact ih h'
    | single hp' _ _ => exact absurd hp' hp
    | line hp' _ _ _ => exact absurd hp' hp
  | single hp hl _ ih =>
    cases h' with
    | taken hp' _ => exact absurd hp hp'
    | single _ _ h' => exact ih h'
    | line _ hl' hlen _ => cases hl.unique hW hl'; simp at hlen
  | line hp hl hlen _ ih =>
    cases h' with
    | taken hp' _ => exact absurd hp hp'
    | single _ hl' _ => cases hl.unique hW hl'; simp at hlen
    | line _ hl' _ h' => cases hl.unique hW hl'; rw [ih h']

theorem PriorityOrdered.unique (hW : LawfulLt W) {prio : List W} {l l' : List Nat} (h : PriorityOrdered prio l)
    (h' : PriorityOrdered prio l') (hm : ∀ x, x ∈ l ↔ x ∈ l') (hn : l.Nodup) (hn' : l'.Nodup) : l = l' := by
  refine List.Perm.eq_of_pairwise (le := fun a b => ∃ wa wb, prio[a]? = some wa ∧ prio[b]? = some wb ∧
    (Num.lt wb wa = true ∨ (wa = wb ∧ a < b))) ?_ h h' ((List.perm_ext_iff_of_nodup hn hn').2 hm)
  rintro a b _ _ ⟨wa, wb, h1, h2, h3⟩ ⟨wb', wa', h1', h2', h3'⟩
  rw [h1] at h2'; cases h2'
  rw [h2] at h1'; cases h1'
  rcases h3 with h3 | ⟨h3, h4⟩ <;> rcases h3' with h3' | ⟨h3', h4'⟩
  · rw [hW.asymm h3] at h3'; cases h3'
  · rw [h3', hW.irrefl] at h3; cases h3
  · rw [h3, hW.irrefl] at h3'; cases h3'
  · omega

end CoMMA
