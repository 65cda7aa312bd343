import Verif.Lemmas.LineSpec
import Verif.Spec.Chains
import Verif.Lemmas.Graph
/-! # Lines where strong couplings form chains -/

set_option linter.unusedSectionVars false

namespace CoMMA

variable {W : Type} [Num W]

variable {g : Graph W} {coupling : Coupling} {T : Nat → Prop} {force : Bool}

theorem StrongTo.adj {i n : Nat} (h : StrongTo g coupling i n) : Adj g.rowPtr g.colInd i n := by
  obtain ⟨_, ⟨k, ⟨b, e, h1, h2, h3, h4, h5⟩, _⟩, _⟩ := h
  exact ⟨b, e, k, h1, h2, h3, h4, h5⟩

/-- the free neighbours of `i` that are straight ahead are those strongly coupled with it -/
def FollowsDir (g : Graph W) (coupling : Coupling) (force : Bool) (free : Nat → Prop) (d : Option (List W)) (i : Nat) : Prop :=
  force = false ∨ d = none ∨ ∃ e, d = some e ∧
    ∀ w, free w → Adj g.rowPtr g.colInd i w → ((∃ c, Ahead g e i w c) ↔ StrongTo g coupling i w)

theorem FollowsDir.step (hf : force = false ∨ StraightChains g coupling T) {free : Nat → Prop} {i x : Nat} {d : List W}
    (hT : ∀ x, free x → T x) (hi : T i) (hni : ¬ free i) (hx : T x) (hs : StrongTo g coupling i x) (hd : StepDir g i x d) :
    FollowsDir g coupling force free (some d) x := by
  rcases hf with hf | hf
  · exact Or.inl hf
  · refine Or.inr (Or.inr ⟨d, rfl, fun w hw hadj => ?_⟩)
    rw [← hf.on i x w hi hx (hT w hw) hs hadj (fun e => hni (e ▸ hw))]
    exact ⟨fun h => ⟨d, hd, h⟩, fun ⟨e, he, h⟩ => by rw [hd.unique he]; exact h⟩

theorem FollowsDir.opposite (hf : force = false ∨ StraightChains g coupling T) {free : Nat → Prop} {p x : Nat} {d : List W}
    (hT : ∀ x, free x → T x) (hp : T p) (hx : T x) (hnx : ¬ free x) (hs : StrongTo g coupling p x) (hd : StepDir g p x d) :
    FollowsDir g coupling force free (some (d.map Num.neg)) p := by
  rcases hf with hf | hf
  · exact Or.inl hf
  · refine Or.inr (Or.inr ⟨_, rfl, fun w hw hadj => ?_⟩)
    rw [← hf.back w p x (hT w hw) hp hx hs hadj (fun e => hnx (e ▸ hw))]
    exact ⟨fun h => ⟨d, hd, h⟩, fun ⟨e, he, h⟩ => by rw [hd.unique he]; exact h⟩

theorem NextCell.noneStrong {free : Nat → Prop} {d : Option (List W)} {i : Nat} (hd : FollowsDir g coupling force free d i)
    (h : NextCell g coupling force free d i none) {j : Nat} (hj : free j) : ¬ StrongTo g coupling i j := by
  cases h with
  | noStrong _ h => exact fun ⟨w, hw⟩ => h j w ⟨hj, hw⟩
  | noWay h h1 h2 =>
    intro hs
    rcases hd with hd | hd | ⟨e, he, hd⟩
    · rw [h] at hd; cases hd
    · cases hd
    · cases he
      obtain ⟨c, hc⟩ := (hd j hj hs.adj).2 hs
      exact h2 j c ⟨hj, hs.adj, hc⟩

theorem NextCell.someStrong {free : Nat → Prop} {d : Option (List W)} {i x : Nat} (hd : FollowsDir g coupling force free d i)
    (h : NextCell g coupling force free d i (some x)) : free x ∧ StrongTo g coupling i x := by
  cases h with
  | strongest _ h =>
    obtain ⟨w, ⟨h1, h2⟩, _⟩ := h
    exact ⟨h1, w, h2⟩
  | straight _ h =>
    obtain ⟨w, ⟨h1, h2, _⟩, _⟩ := h
    exact ⟨h1, h2⟩
  | loose h _ h2 =>
    obtain ⟨c, ⟨h3, h4, h5⟩, _⟩ := h2
    rcases hd with hd | hd | ⟨e, he, hd⟩
    · rw [h] at hd; cases hd
    · cases hd
    · cases he
      exact ⟨h3, (hd x h3 h4).1 ⟨c, h5⟩⟩

/-- a walk goes on until no strong coupling with a free cell is left -/
theorem LineWalk.closed (hc : FormChains g coupling T) (hf : force = false ∨ StraightChains g coupling T) {free : Nat → Prop} {d : Option (List W)} {i : Nat} {rest : List Nat}
    (h : LineWalk g coupling force free d i rest) (hT : ∀ x, free x → T x) (hi : T i) (hni : ¬ free i)
    (hd : FollowsDir g coupling force free d i) :
    (∀ u ∈ rest, free u) ∧ (∀ u ∈ rest, ∀ j, T j → StrongTo g coupling u j → j ∈ i :: rest ∨ ¬ free j) ∧
      (rest = [] → ∀ j, free j → ¬ StrongTo g coupling i j) ∧ (∀ x r, rest = x :: r → StrongTo g coupling i x) ∧
      Consecutive (Linked g coupling) (i :: rest) := by
  induction h with
  | stop hn =>
    exact ⟨by simp, by simp, fun _ j hj => hn.noneStrong hd hj, by simp, fun k u v _ hv => by simp at hv⟩
  | @step free d i x d' rest hn hstep hw ih =>
    obtain ⟨hx, hix⟩ := hn.someStrong hd
    obtain ⟨h1, h2, h3, h4, h5⟩ := ih (fun y hy => hT y hy.1) (hT x hx) (fun h => h.2 rfl)
      (FollowsDir.step hf (fun y hy => hT y hy.1) hi (fun h => hni h.1) (hT x hx) hix hstep)
    refine ⟨?_, ?_, by simp, ?_, ?_⟩
    · intro u hu
      rcases List.mem_cons.1 hu with rfl | hu
      · exact hx
      · exact (h1 u hu).1
    · intro u hu j hTj hj
      rcases List.mem_cons.1 hu with rfl | hu
      · cases rest with
        | nil =>
          have := fun hfj => h3 rfl j hfj hj
          by_cases hju : j = u
          · exact Or.inl (by simp [hju])
          · exact Or.inr (fun hfj => this ⟨hfj, hju⟩)
        | cons y r =>
          have hy := h4 y r rfl
          have hyf := h1 y (by simp)
          have hui := hc.back i u hi (hT u hx) hix
          rcases hc.two u i y j (hT u hx) hi (hT y hyf.1) hTj hui hy hj with h | h | h
          · subst h; exact absurd hyf.1 hni
          · subst h; exact Or.inl (by simp)
          · subst h; exact Or.inl (by simp)
      · rcases h2 u hu j hTj hj with h | h
        · exact Or.inl (List.mem_cons_of_mem _ h)
        · by_cases hjx : j = x
          · exact Or.inl (by simp [hjx])
          · exact Or.inr (fun hfj => h ⟨hfj, hjx⟩)
    · intro x' r hr
      cases hr
      exact hix
    · refine h5.cons ?_
      intro y hy
      simp at hy
      subst hy
      exact Or.inl hix

/-- a line takes all cells linked to it -/
theorem LineFrom.closed (hc : FormChains g coupling T) (hf : force = false ∨ StraightChains g coupling T) {free : Nat → Prop} {p : Nat} {l : List Nat}
    (h : LineFrom g coupling force free p l) (hT : ∀ x, free x → T x) (hp : free p) :
    (∀ u ∈ l, free u) ∧ (∀ u ∈ l, ∀ j, T j → StrongTo g coupling u j → j ∈ l ∨ ¬ free j) ∧ Consecutive (Linked g coupling) l := by
  cases h with
  | alone h =>
    obtain ⟨_, _, h3, _, h5⟩ := h.closed hc hf (fun x hx => hT x hx.1) (hT p hp) (fun h => h.2 rfl) (Or.inr (Or.inl rfl))
    refine ⟨by simpa using hp, ?_, h5⟩
    intro u hu j hTj hj
    simp only [List.mem_singleton] at hu
    subst hu
    by_cases hju : j = u
    · exact Or.inl (by simp [hju])
    · exact Or.inr (fun hfj => h3 rfl j ⟨hfj, hju⟩ hj)
  | @both x front back d h1 hd h2 =>
    obtain ⟨a1, a2, _, a4, a5⟩ := h1.closed hc hf (fun x hx => hT x hx.1) (hT p hp) (fun h => h.2 rfl) (Or.inr (Or.inl rfl))
    have hpx := a4 x front rfl
    have hfx := a1 x (by simp)
    obtain ⟨b1, b2, b3, b4, b5⟩ := h2.closed hc hf (fun x hx => hT x hx.1.1) (hT p hp) (fun h => h.1.2 rfl)
      (FollowsDir.opposite hf (fun y hy => hT y hy.1.1) (hT p hp) (hT x hfx.1) (fun h => h.2 (by simp)) hpx hd)
    have hmem : ∀ j, j ∈ back.reverse ++ p :: x :: front ↔ j ∈ back ∨ j = p ∨ j ∈ x :: front := by intro j; simp
    refine ⟨?_, ?_, Consecutive.reverse_append (fun _ _ => Linked.symm) _ _ _ b5 a5⟩
    · intro u hu
      rcases (hmem u).1 hu with hu | rfl | hu
      · exact (b1 u hu).1.1
      · exact hp
      · exact (a1 u hu).1
    · intro u hu j hTj hj
      rw [hmem]
      have hout : ∀ j, ¬ ((free j ∧ j ≠ p) ∧ j ∉ x :: front) → (j ∈ back ∨ j = p ∨ j ∈ x :: front) ∨ ¬ free j := by
        intro j hj
        by_cases h5 : free j
        · by_cases h6 : j = p
          · exact Or.inl (Or.inr (Or.inl h6))
          · by_cases h7 : j ∈ x :: front
            · exact Or.inl (Or.inr (Or.inr h7))
            · exact absurd ⟨⟨h5, h6⟩, h7⟩ hj
        · exact Or.inr h5
      rcases (hmem u).1 hu with hu | rfl | hu
      · rcases b2 u hu j hTj hj with h | h
        · rcases List.mem_cons.1 h with h | h
          · exact Or.inl (Or.inr (Or.inl h))
          · exact Or.inl (Or.inl h)
        · exact hout j h
      · cases back with
        | nil => exact hout j (fun hfj => b3 rfl j hfj hj)
        | cons y r =>
          have hy := b4 y r rfl
          have hfy := b1 y (by simp)
          rcases hc.two u x y j (hT u hp) (hT x hfx.1) (hT y hfy.1.1) hTj hpx hy hj with h | h | h
          · subst h; exact absurd (by simp) hfy.2
          · subst h; exact Or.inl (Or.inl (by simp))
          · subst h; exact Or.inl (Or.inr (Or.inr (by simp)))
      · rcases a2 u hu j hTj hj with h | h
        · rcases List.mem_cons.1 h with h | h
          · exact Or.inl (Or.inr (Or.inl h))
          · exact Or.inl (Or.inr (Or.inr h))
        · by_cases h6 : j = p
          · exact Or.inl (Or.inr (Or.inl h6))
          · exact Or.inr (fun hfj => h ⟨hfj, h6⟩)

/-- lines consist of free cells -/
theorem LinesFrom.cells (hc : FormChains g coupling T) (hf : force = false ∨ StraightChains g coupling T) {free : Nat → Prop} {seeds : List Nat} {ls : List (List Nat)}
    (h : LinesFrom g coupling force free seeds ls) (hT : ∀ x, free x → T x) : ∀ l ∈ ls, ∀ x ∈ l, free x := by
  induction h with
  | done => simp
  | taken _ _ ih => exact ih hT
  | single _ _ _ ih => exact fun l hl x hx => (ih (fun y hy => hT y hy.1) l hl x hx).1
  | line hp hl _ _ ih =>
    intro l' hl' x hx
    rcases List.mem_cons.1 hl' with rfl | hl'
    · exact (hl.closed hc hf hT hp).1 x hx
    · exact (ih (fun y hy => hT y hy.1) l' hl' x hx).1

/-- consecutive cells of a line are strongly coupled -/
theorem LinesFrom.linkedChains (hc : FormChains g coupling T) (hf : force = false ∨ StraightChains g coupling T) {free : Nat → Prop}
    {seeds : List Nat} {ls : List (List Nat)} (h : LinesFrom g coupling force free seeds ls) (hT : ∀ x, free x → T x) :
    ∀ l ∈ ls, Consecutive (Linked g coupling) l := by
  induction h with
  | done => simp
  | taken _ _ ih => exact ih hT
  | single _ _ _ ih => exact ih (fun y hy => hT y hy.1)
  | line hp hl _ _ ih =>
    intro l' hl'
    rcases List.mem_cons.1 hl' with rfl | hl'
    · exact (hl.closed hc hf hT hp).2.2
    · exact ih (fun y hy => hT y hy.1) l' hl'

/-- two strongly coupled cells are on the same line -/
theorem LinesFrom.together (hc : FormChains g coupling T) (hf : force = false ∨ StraightChains g coupling T) {free : Nat → Prop} {seeds : List Nat} {ls : List (List Nat)}
    (h : LinesFrom g coupling force free seeds ls) (hT : ∀ x, free x → T x)
    (hcl : ∀ i j, T i → T j → StrongTo g coupling i j → free i → free j) {i j : Nat} (hne : i ≠ j) (hi : free i) (hj : free j)
    (hs : i ∈ seeds) (hij : StrongTo g coupling i j) : ∃ l ∈ ls, i ∈ l ∧ j ∈ l := by
  induction h with
  | done => simp at hs
  | taken hp _ ih =>
    rcases List.mem_cons.1 hs with rfl | hs
    · exact absurd hi hp
    · exact ih hT hcl hi hj hs
  | @single free p rest ls hp hl _ ih =>
    obtain ⟨_, h2, _⟩ := hl.closed hc hf hT hp
    have hnone : ∀ k, T k → StrongTo g coupling p k → k = p ∨ ¬ free k := fun k hk hpk => by
      rcases h2 p (by simp) k hk hpk with h | h
      · exact Or.inl (by simpa using h)
      · exact Or.inr h
    have hip : i ≠ p := by
      rintro rfl
      rcases hnone j (hT j hj) hij with h | h
      · exact hne h.symm
      · exact h hj
    have hjp : j ≠ p := by
      rintro rfl
      rcases hnone i (hT i hi) (hc.back i j (hT i hi) (hT j hj) hij) with h | h
      · exact hne h
      · exact h hi
    rcases List.mem_cons.1 hs with h | hs
    · exact absurd h hip
    · refine ih (fun y hy => hT y hy.1) ?_ ⟨hi, hip⟩ ⟨hj, hjp⟩ hs
      intro a b ha hb hab hfa
      refine ⟨hcl a b ha hb hab hfa.1, ?_⟩
      rintro rfl
      rcases hnone a ha (hc.back a b ha hb hab) with h | h
      · exact hfa.2 h
      · exact h hfa.1
  | @line free p rest l ls hp hl h2l _ ih =>
    obtain ⟨h1, h2, _⟩ := hl.closed hc hf hT hp
    by_cases hil : i ∈ l
    · refine ⟨l, by simp, hil, ?_⟩
      rcases h2 i hil j (hT j hj) hij with h | h
      · exact h
      · exact absurd hj h
    · have hjl : j ∉ l := by
        intro hjl
        rcases h2 j hjl i (hT i hi) (hc.back i j (hT i hi) (hT j hj) hij) with h | h
        · exact hil h
        · exact h hi
      rcases List.mem_cons.1 hs with h | hs
      · subst h; exact absurd hl.mem hil
      · obtain ⟨l', hl', h3⟩ := ih (fun y hy => hT y hy.1) (by
          intro a b ha hb hab hfa
          refine ⟨hcl a b ha hb hab hfa.1, ?_⟩
          intro hbl
          rcases h2 b hbl a ha (hc.back a b ha hb hab) with h | h
          · exact hfa.2 h
          · exact h hfa.1) ⟨hi, hil⟩ ⟨hj, hjl⟩ hs
        exact ⟨l', List.mem_cons_of_mem _ hl', h3⟩

theorem Consecutive.walk {R : Nat → Nat → Prop} {l : List Nat} (h : Consecutive R l) : ∀ (k a : Nat) (u v : Nat), l[a]? = some u →
    l[a + k]? = some v → Walk R k u v := by
  intro k
  induction k with
  | zero =>
    intro a u v hu hv
    rw [Nat.add_zero, hu] at hv
    cases hv
    exact .nil _
  | succ k ih =>
    intro a u v hu hv
    have hlt : a + k < l.length := by have := (List.getElem?_eq_some_iff.1 hv).1; omega
    exact .step (ih a u l[a + k] hu (List.getElem?_eq_getElem hlt)) (h (a + k) _ v (List.getElem?_eq_getElem hlt) hv)

end CoMMA
