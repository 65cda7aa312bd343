import Verif.Lemmas.PoolSteps
import Verif.Props.Growth
/-! # C61, C62: exact behaviour of the seeds pools, level chosen when no seed is left -/

set_option linter.unusedSectionVars false

namespace CoMMA

variable {W : Type} [Num W]

/-- **C61** After any history of calls on a pool of either kind, each operation does exactly
what its description says: choice of a seed, ordered update with new seeds. -/
theorem C61_steps (hW : LawfulLt W) {c : PoolCfg W} {n : Nat} (hc : PoolInput c n) (hp : PrioritiesOk c)
    {p : Pool} {agg : List Bool} {b : Bool} (h : PoolRun c n p agg b) :
    (∃ o p', p.choose c agg = .ok (o, p') ∧ SeedChosen c agg p o p') ∧
    (∀ (hh : Hash) (seeds : NSet), (∀ s ∈ seeds, s < n) →
      ∃ p', p.orderUpdate c hh seeds = .ok p' ∧ SeedsJoined c seeds p p') := by
  obtain ⟨h1, h2, _⟩ := h.inv hc hp
  refine ⟨?_, fun hh seeds hs => (orderUpdate_exact hW hc hh h2.q.1 hs).eq⟩
  obtain ⟨⟨o, p'⟩, h3, h4⟩ := (choose_exact hW hc h1 h2.q h2.top).eq
  exact ⟨o, p', h3, h4⟩

/-- **C61** (initialisation of a new pool) -/
theorem C61_start (hW : LawfulLt W) {c : PoolCfg W} {n : Nat} (hc : PoolInput c n) (hp : PrioritiesOk c) :
    ∃ p, Pool.new.initialize c = .ok p ∧ PoolStarted c p := by
  obtain ⟨p, h⟩ := (C06_no_failure hc hp (PoolRun.start (c := c) (n := n))).1
  exact ⟨p, h, poolStarted hW hc hp h⟩

theorem FirstFree.unique {agg : List Bool} {q : List Nat} {s s' : Nat} {rest rest' : List Nat}
    (h : FirstFree agg q s rest) (h' : FirstFree agg q s' rest') : s = s' ∧ rest = rest' := by
  obtain ⟨pre, e, h1, h2⟩ := h
  obtain ⟨pre', e', h1', h2'⟩ := h'
  subst e
  induction pre generalizing pre' with
  | nil =>
    cases pre' with
    | nil =>
      simp only [List.nil_append, List.cons.injEq] at e'
      exact e'
    | cons x pre' =>
      simp only [List.nil_append, List.cons_append, List.cons.injEq] at e'
      have := h1' x (by simp)
      rw [← e'.1, h2] at this; cases this
  | cons y pre ih =>
    cases pre' with
    | nil =>
      simp only [List.nil_append, List.cons_append, List.cons.injEq] at e'
      have := h1 y (by simp)
      rw [e'.1, h2'] at this; cases this
    | cons x pre' =>
      simp only [List.cons_append, List.cons.injEq] at e'
      exact ih (fun z hz => h1 z (by simp [hz])) pre' (fun z hz => h1' z (by simp [hz])) e'.2

theorem FirstFree.mem {agg : List Bool} {q : List Nat} {s : Nat} {rest : List Nat} (h : FirstFree agg q s rest) :
    s ∈ q ∧ agg[s]? = some false := by
  obtain ⟨pre, e, _, h2⟩ := h
  exact ⟨by rw [e]; simp, h2⟩

theorem FirstFree.not_none {agg : List Bool} {q : List Nat} {s : Nat} {rest : List Nat} (h : FirstFree agg q s rest)
    (h' : ∀ x ∈ q, agg[x]? = some true) : False := by
  have := h' s h.mem.1
  rw [h.mem.2] at this; cases this

theorem NextLevel.free {nBnd : List Nat} {agg : List Bool} {t cur : Nat} (h : NextLevel nBnd agg t cur) :
    ∃ i : Nat, nBnd[i]? = some cur ∧ agg[i]? = some false := by
  rcases h with ⟨i, h1, h2, _⟩ | ⟨h, _⟩
  · exact ⟨i, h1, h2⟩
  · exact h

theorem NextLevel.unique {nBnd : List Nat} {agg : List Bool} {t cur cur' : Nat} (h : NextLevel nBnd agg t cur)
    (h' : NextLevel nBnd agg t cur') : cur = cur' := by
  have mixed : ∀ {cur cur' : Nat}, (∃ i : Nat, nBnd[i]? = some cur ∧ agg[i]? = some false ∧ t ≤ cur ∧
      ∀ (j : Nat) b, j < i → nBnd[j]? = some b → agg[j]? = some false → b < t) →
      ((∃ i : Nat, nBnd[i]? = some cur' ∧ agg[i]? = some false) ∧ cur' < t ∧
        ∀ (j : Nat) b, nBnd[j]? = some b → agg[j]? = some false → b ≤ cur') → False := by
    rintro cur cur' ⟨i, h1, h2, h3, _⟩ ⟨_, h4, h5⟩
    have := h5 i cur h1 h2
    omega
  rcases h with h | h <;> rcases h' with h' | h'
  · obtain ⟨i, h1, h2, h3, h4⟩ := h
    obtain ⟨i', h1', h2', h3', h4'⟩ := h'
    rcases Nat.lt_trichotomy i i' with hi | rfl | hi
    · have := h4' i cur hi h1 h2; omega
    · rw [h1] at h1'; cases h1'; rfl
    · have := h4 i' cur' hi h1' h2'; omega
  · exact (mixed h h').elim
  · exact (mixed h' h).elim
  · obtain ⟨⟨i, h1, h2⟩, _, h4⟩ := h
    obtain ⟨⟨i', h1', h2'⟩, _, h4'⟩ := h'
    have := h4 i' cur' h1' h2'
    have := h4' i cur h1 h2
    omega

theorem FreeOfLevel.unique (hW : LawfulLt W) {c : PoolCfg W} {agg : List Bool} {k : Nat} {l l' : List Nat}
    (h : FreeOfLevel c agg k l) (h' : FreeOfLevel c agg k l') : l = l' :=
  ordered_unique (fun _ _ h1 h2 => Before.asymm hW h1 h2) h.1 h'.1 (fun x => (h.2 x).trans (h'.2 x).symm)

theorem pool_eq {p p1 p2 : Pool} {f : Nat → List Nat → List Nat} (ht : p1.top = p2.top)
    (h1 : p1.queues.length = p.queues.length) (h2 : p2.queues.length = p.queues.length)
    (e1 : ∀ (j : Nat) r, p.queues[j]? = some r → p1.queues[j]? = some (f j r))
    (e2 : ∀ (j : Nat) r, p.queues[j]? = some r → p2.queues[j]? = some (f j r)) : p1 = p2 := by
  obtain ⟨q1, t1⟩ := p1
  obtain ⟨q2, t2⟩ := p2
  simp only at ht h1 h2 e1 e2
  subst ht
  congr 1
  apply List.ext_getElem?
  intro j
  by_cases hj : j < p.queues.length
  · have hr : p.queues[j]? = some p.queues[j] := by simp [hj]
    rw [e1 j _ hr, e2 j _ hr]
  · rw [List.getElem?_eq_none (by omega), List.getElem?_eq_none (by omega)]

/-- **C61** The description of a choice leaves no freedom: it determines the seed and the new
state of the pool. -/
theorem C61_choice_unique (hW : LawfulLt W) {c : PoolCfg W} {agg : List Bool} {p p1 p2 : Pool} {o1 o2 : Option Nat}
    (h1 : SeedChosen c agg p o1 p1) (h2 : SeedChosen c agg p o2 p2) : o1 = o2 ∧ p1 = p2 := by
  cases h1 with
  | off t1 =>
    cases h2 with
    | off => exact ⟨rfl, rfl⟩
    | waiting t2 => rw [t1] at t2; cases t2
    | finished t2 => rw [t1] at t2; cases t2
    | otherLevel t2 => rw [t1] at t2; cases t2
  | @waiting t k s q rest _ t1 a1 a2 a3 a4 a5 a6 a7 a8 =>
    cases h2 with
    | off t2 => rw [t1] at t2; cases t2
    | @waiting t' k' s' q' rest' _ t2 b1 b2 b3 b4 b5 b6 b7 b8 =>
      rw [t1] at t2; cases t2
      have hk : k = k' := by
        rcases Nat.lt_trichotomy k k' with hlt | h | hlt
        · exact (b5.not_none (a3 k' q' (by omega) b2 b4)).elim
        · exact h
        · exact (a5.not_none (b3 k q (by omega) a2 a4)).elim
      subst hk
      rw [a4] at b4; cases b4
      obtain ⟨rfl, rfl⟩ := a5.unique b5
      exact ⟨rfl, pool_eq (a6.trans b6.symm) a7 b7 a8 b8⟩
    | finished t2 b1 =>
      rw [t1] at t2; cases t2
      exact (a5.not_none (b1 k q a1 a2 a4)).elim
    | otherLevel t2 b1 =>
      rw [t1] at t2; cases t2
      exact (a5.not_none (b1 k q a1 a2 a4)).elim
  | @finished t _ t1 a1 a2 a3 a4 a5 =>
    cases h2 with
    | off t2 => rw [t1] at t2; cases t2
    | @waiting t' k' s' q' rest' _ t2 b1 b2 b3 b4 b5 b6 b7 b8 =>
      rw [t1] at t2; cases t2
      exact (b5.not_none (a1 k' q' b1 b2 b4)).elim
    | finished t2 b1 b2 b3 b4 b5 =>
      rw [t1] at t2; cases t2
      exact ⟨rfl, pool_eq (a3.trans b3.symm) a4 b4 a5 b5⟩
    | otherLevel t2 b1 b2 =>
      obtain ⟨i, h3, h4⟩ := b2.free
      have := a2 i _ h3
      rw [h4] at this; cases this
  | @otherLevel t cur s q rest _ t1 a1 a2 a3 a4 a5 a6 a7 =>
    cases h2 with
    | off t2 => rw [t1] at t2; cases t2
    | @waiting t' k' s' q' rest' _ t2 b1 b2 b3 b4 b5 b6 b7 b8 =>
      rw [t1] at t2; cases t2
      exact (b5.not_none (a1 k' q' b1 b2 b4)).elim
    | finished t2 b1 b2 =>
      obtain ⟨i, h3, h4⟩ := a2.free
      have := b2 i _ h3
      rw [h4] at this; cases this
    | @otherLevel t' cur' s' q' rest' _ t2 b1 b2 b3 b4 b5 b6 b7 =>
      rw [t1] at t2; cases t2
      obtain rfl := a2.unique b2
      rw [a3] at b3; cases b3
      have hsr : s = s' ∧ rest = rest' := by
        rcases a4 with a4 | ⟨a4, a4'⟩ <;> rcases b4 with b4 | ⟨b4, b4'⟩
        · exact a4.unique b4
        · exact (a4.not_none b4).elim
        · exact (b4.not_none a4).elim
        · have := a4'.unique hW b4'
          simpa using this
      obtain ⟨rfl, rfl⟩ := hsr
      exact ⟨rfl, pool_eq (a5.trans b5.symm) a6 b6 a7 b7⟩

/-- **C61** The description of an update leaves no freedom. -/
theorem C61_update_unique (hW : LawfulLt W) {c : PoolCfg W} {seeds : NSet} {p p1 p2 : Pool}
    (h1 : SeedsJoined c seeds p p1) (h2 : SeedsJoined c seeds p p2) : p1 = p2 := by
  have hasym : ∀ x y : Nat, (∃ bx bny, c.nBnd[x]? = some bx ∧ c.nBnd[y]? = some bny ∧
      (bny < bx ∨ (bx = bny ∧ Before c.prio x y))) → (∃ bx bny, c.nBnd[y]? = some bx ∧ c.nBnd[x]? = some bny ∧
      (bny < bx ∨ (bx = bny ∧ Before c.prio y x))) → False := by
    rintro x y ⟨b1, b2, e1, e2, h⟩ ⟨b3, b4, e3, e4, h'⟩
    rw [e1] at e4; cases e4
    rw [e2] at e3; cases e3
    rcases h with h | ⟨rfl, h⟩ <;> rcases h' with h' | ⟨h', h''⟩
    · omega
    · omega
    · omega
    · exact h.asymm hW h''
  have htop : p1.top = p2.top := by
    by_cases hs : ∃ s, s ∈ seeds
    · cases hk : c.kind with
      | neighbourhood => rw [h1.keep (Or.inl hk), h2.keep (Or.inl hk)]
      | boundary =>
        obtain ⟨t, a1, a2, a3, a4⟩ := h1.raise hk hs
        obtain ⟨t', b1, b2, b3, b4⟩ := h2.raise hk hs
        have : t = t' := by
          apply Nat.le_antisymm
          · rcases a4 with a4 | ⟨s, h3, h4⟩
            · exact b2 t a4
            · exact b3 s h3 t h4
          · rcases b4 with b4 | ⟨s, h3, h4⟩
            · exact a2 t' b4
            · exact a3 s h3 t' h4
        rw [a1, b1, this]
    · have hs' : ∀ s, s ∉ seeds := fun s h => hs ⟨s, h⟩
      rw [h1.keep (Or.inr hs'), h2.keep (Or.inr hs')]
  obtain ⟨q1, t1⟩ := p1
  obtain ⟨q2, t2⟩ := p2
  simp only at htop
  subst htop
  congr 1
  apply List.ext_getElem?
  intro j
  have l1 := h1.size
  have l2 := h2.size
  simp only at l1 l2
  by_cases hj : j < p.queues.length
  · have hr : p.queues[j]? = some p.queues[j] := by simp [hj]
    obtain ⟨l, a1, a2, a3⟩ := h1.queues j _ hr
    obtain ⟨l', b1, b2, b3⟩ := h2.queues j _ hr
    simp only at a1 b1
    rw [a1, b1, ordered_unique hasym a3 b3 (fun x => (a2 x).trans (b2 x).symm)]
  · rw [List.getElem?_eq_none (by omega), List.getElem?_eq_none (by omega)]

/-- **C61** The description of a new pool leaves no freedom. -/
theorem C61_start_unique (hW : LawfulLt W) {c : PoolCfg W} {p1 p2 : Pool}
    (h1 : PoolStarted c p1) (h2 : PoolStarted c p2) : p1 = p2 := by
  obtain ⟨t, l, a1, a2, a3, a4, a5⟩ := h1.start
  obtain ⟨t', l', b1, b2, b3, b4, b5⟩ := h2.start
  obtain rfl : t = t' := Nat.le_antisymm (b3 t a2) (a3 t' b2)
  obtain rfl := a5.unique hW b5
  obtain ⟨q1, t1⟩ := p1
  obtain ⟨q2, t2⟩ := p2
  simp only at a1 b1 a4 b4
  rw [a1, b1, a4, b4]

/-! ### Concrete cases -/

/-- a history in which nothing waits: initialise, choose 2, mark it -/
theorem exPool_run (k : PoolKind) : PoolRun (exPool k false) 4 ⟨[[], [], [], []], some 3⟩ [false, false, true, false] true := by
  refine .mark (agg := List.replicate 4 false) (.choose (o := some 2)
    (.init (p' := ⟨[[], [], [], [2]], some 3⟩) .start ?_) ?_) rfl
    (by intro i hi; have := List.mem_of_getElem? hi; simp at this)
  · cases k <;> rfl
  · cases k <;> rfl

example := C61_steps exLawful (exPool_input .boundary false) (exPool_prio _ _) (exPool_run _)
example := C61_steps exLawful (exPool_input .neighbourhood false) (exPool_prio _ _) (exPool_run _)
example := C61_start exLawful (exPool_input .neighbourhood true) (exPool_prio _ _)

/-- nothing waits on level 3, the pool goes to level 2, of cell 0 -/
example : SeedChosen (exPool .boundary false) [false, false, true, false] ⟨[[], [], [], []], some 3⟩ (some 0)
    ⟨[[], [], [], []], some 2⟩ := by
  obtain ⟨o, p', h1, h2⟩ := (C61_steps exLawful (exPool_input .boundary false) (exPool_prio _ _) (exPool_run _)).1
  have : (Except.ok (some 0, ⟨[[], [], [], []], some 2⟩) : M (Option Nat × Pool)) = .ok (o, p') := by
    rw [← h1]; decide +kernel
  cases this
  exact h2

/-- an update: the new seeds join their levels -/
example : SeedsJoined (exPool .boundary false) (NSet.ofList [0, 1, 3]) ⟨[[], [], [], []], some 3⟩
    ⟨[[1, 3], [], [0], []], some 3⟩ := by
  obtain ⟨p', h1, h2⟩ := (C61_steps exLawful (exPool_input .boundary false) (exPool_prio _ _) (exPool_run _)).2
    Hash.rev (NSet.ofList [0, 1, 3]) (by decide)
  have : (Except.ok ⟨[[1, 3], [], [0], []], some 3⟩ : M Pool) = .ok p' := by rw [← h1]; decide +kernel
  cases this
  exact h2

/-! ### C62: the level chosen when no seed is left -/

/-- **C62** (partial: see `C62_pool` and `C62_call` for the full claim, that the seed has the
largest number of boundary faces of the free cells, which is false) After any history of calls
on a pool, if no free cell waits in its queues, the seed chosen has the largest number of boundary faces of the free cells as long
as no free cell has more than the level in use; otherwise its number of boundary faces is that
of the first free cell, by index, with at least the level in use. -/
theorem C62_partial (hW : LawfulLt W) {c : PoolCfg W} {n : Nat} (hc : PoolInput c n) (hp : PrioritiesOk c)
    {p : Pool} {agg : List Bool} {b : Bool} (h : PoolRun c n p agg b)
    {t s : Nat} {p' : Pool} (ht : p.top = some t) (hw : ∀ q ∈ p.queues, ∀ x ∈ q, agg[x]? = some true)
    (hch : p.choose c agg = .ok (some s, p')) :
    ∃ bs, c.nBnd[s]? = some bs ∧ agg[s]? = some false ∧
      ((∀ (i : Nat) b, c.nBnd[i]? = some b → agg[i]? = some false → b ≤ t) →
        ∀ (i : Nat) b, c.nBnd[i]? = some b → agg[i]? = some false → b ≤ bs) ∧
      (∀ (i : Nat) b, c.nBnd[i]? = some b → agg[i]? = some false → t ≤ b →
        (∀ (j : Nat) b', j < i → c.nBnd[j]? = some b' → agg[j]? = some false → b' < t) → b = bs) := by
  obtain ⟨o, p1, h1, h2⟩ := (C61_steps hW hc hp h).1
  rw [hch] at h1
  cases h1
  cases h2 with
  | @waiting t' k _ q _ _ t1 a1 a2 _ a4 a5 =>
    rw [ht] at t1; cases t1
    exact (a5.not_none (hw q (List.mem_of_getElem? a4))).elim
  | @otherLevel t' cur _ q rest _ t1 a1 a2 a3 a4 =>
    rw [ht] at t1; cases t1
    rcases a4 with a4 | ⟨_, a4⟩
    · exact (a4.not_none (hw q (List.mem_of_getElem? a3))).elim
    obtain ⟨h3, h4⟩ := (a4.2 s).1 (by simp)
    refine ⟨cur, h3, h4, fun hmax i b hi hf => ?_, fun i b hi hf hb hfirst => ?_⟩
    · rcases a2 with ⟨_, _, _, a2, _⟩ | ⟨_, _, a2⟩
      · exact Nat.le_trans (hmax i b hi hf) a2
      · exact a2 i b hi hf
    · exact NextLevel.unique (Or.inl ⟨i, hi, hf, hb, hfirst⟩) a2

/-- cells 1 and 3 are on the boundary -/
def exPoolTwo : PoolCfg Int := ⟨.neighbourhood, false, [1, 1, 1, 1], [0, 3, 0, 2], 1000⟩

/-- **C62 fails**: the pool is initialised with the corner 1; it is taken, its neighbour 0 is
queued, chosen and taken; then the pool gives the interior cell 2 though the ridge 3 is free. -/
theorem C62_pool : ∃ p, IsoRun exPoolTwo 4 p [true, true, false, false] ∧ (∀ q ∈ p.queues, q = []) ∧
    p.choose exPoolTwo [true, true, false, false] = .ok (some 2, ⟨[[], [], [], []], some 0⟩) := by
  refine ⟨⟨[[], [], [], []], some 0⟩, .mark (agg := [false, true, false, false]) (.choose (o := some 0)
    (.mark (agg := List.replicate 4 false) (.update (seeds := [0]) (.choose (o := some 1) (.start rfl) rfl) (by decide) rfl)
      rfl (by intro i hi; have := List.mem_of_getElem? hi; simp at this)) rfl) rfl ?_, ?_, rfl⟩
  · intro i hi
    rcases i with _ | _ | _ | _ | i
    · rfl
    · rfl
    · cases hi
    · cases hi
    · simp at hi
  · decide

/-- the hypotheses of C62_partial are met by that state, where the free cell 3 has more faces
than the level in use, and by the state after a choice, where it does not happen -/
example : PoolInput exPoolTwo 4 ∧ PrioritiesOk exPoolTwo := ⟨⟨by decide, rfl, rfl, by decide⟩, by simp [PrioritiesOk, exPoolTwo]⟩
example := C62_partial exLawful (exPool_input .neighbourhood false) (exPool_prio _ _) (exPool_run _) (t := 3) (s := 0)
  (p' := ⟨[[], [], [], []], some 2⟩) rfl (by decide) (by decide +kernel)

/-- two rows of cells, 0-1-2-3 and 4-5-6; 3 is a corner, 6 a ridge, the others are interior -/
def exRows : Args Int :=
  { exRow with
    rowPtr := [0, 1, 3, 5, 6, 7, 9, 10], colInd := [1, 0, 2, 1, 3, 2, 5, 4, 6, 5], values := List.replicate 10 1,
    volumes := List.replicate 7 1, centers := [[0, 0], [1, 0], [2, 0], [3, 0], [0, 9], [1, 9], [2, 9]],
    prio := List.replicate 7 1, nBnd := [0, 0, 0, 2, 0, 0, 1], minCard := 2, goalCard := 2, maxCard := 2,
    order := .neighbourhood }

theorem exRows_crs : ValidCRS 7 exRows.rowPtr exRows.colInd := checkCRS_sound (by decide)
theorem exRows_uniq : UniqueRows exRows.rowPtr exRows.colInd := checkUniq_sound exRows_crs (by decide)
theorem exRows_loop : NoSelfLoop exRows.rowPtr exRows.colInd := checkNoLoop_sound exRows_crs (by decide)

theorem exRows_valid : ValidMesh exRows 7 where
  pos := by decide
  crs := exRows_crs
  sym := checkSym_sound exRows_crs (by decide)
  uniq := Or.inl exRows_uniq
  values := rfl
  volumes := rfl
  centers := rfl
  prio := rfl
  bnd := rfl
  coords := ⟨2, by decide⟩

theorem exRows_params : ValidParams exPlatform exRows where
  dim := by decide
  minCard := by decide
  goalCard := by decide
  maxCard := by decide
  iter := by decide
  thresh := by decide
  order := by decide
  aspect := by decide
  onePoint := by decide

/-- **C62 fails** in a whole call: after the first row nothing waits; the second row is
started from the interior cell 4, by its index, not from the cell 6 on the boundary, which
ends alone. -/
theorem C62_call : ValidMesh exRows 7 ∧ ValidParams exPlatform exRows ∧
    (agglomerateOneLevel exPlatform exRows ⟨[], [], []⟩).1.fcToCc = [1, 1, 0, 0, 2, 2, 3] :=
  ⟨exRows_valid, exRows_params, by decide +kernel⟩

end CoMMA
