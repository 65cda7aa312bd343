import Verif.Lemmas.Parts
/-! # Two agglomerations that share a part of the mesh: the run -/

set_option linter.unusedSectionVars false

namespace CoMMA

variable {W F : Type} [Num W]

/-- the free cells that wait on level `k` -/
def freeQ (agg : List Bool) (p : Pool) (k : Nat) : List Nat :=
  ((p.queues[k]?).getD []).filter (fun x => decide (agg[x]? = some false))

theorem mem_freeQ {agg : List Bool} {p : Pool} {k x : Nat} :
    x ∈ freeQ agg p k ↔ (∃ q, p.queues[k]? = some q ∧ x ∈ q) ∧ agg[x]? = some false := by
  unfold freeQ
  rw [List.mem_filter, decide_eq_true_iff]
  cases p.queues[k]? with
  | none => simp
  | some q => simp

/-- what holds of a pool with boundary priority: no free cell is above the level in use; the free
cells wait on their own level -/
structure PoolInv (c : PoolCfg W) (agg : List Bool) (p : Pool) : Prop where
  bounds : TopBounds c agg p
  levels : ∀ k x, x ∈ freeQ agg p k → c.nBnd[x]? = some k
  size : p.queues.length = 4

theorem filter_none {agg : List Bool} {q : List Nat} (h : ∀ x ∈ q, agg[x]? = some true) :
    q.filter (fun x => decide (agg[x]? = some false)) = [] := by
  rw [List.filter_eq_nil_iff]
  intro x hx hc
  rw [decide_eq_true_iff, h x hx] at hc
  cases hc

theorem FirstFree.filter {agg : List Bool} {q rest : List Nat} {s : Nat} (h : FirstFree agg q s rest) :
    q.filter (fun x => decide (agg[x]? = some false)) = s :: rest.filter (fun x => decide (agg[x]? = some false)) := by
  obtain ⟨pre, rfl, h1, h2⟩ := h
  rw [List.filter_append, filter_none h1, List.nil_append, List.filter_cons, if_pos (by rw [h2]; rfl)]

theorem SeedChosen.onFree {c : PoolCfg W} (hk : c.kind = .boundary) {agg : List Bool} {p p1 : Pool} {s : Nat}
    (hI : PoolInv c agg p) (h : SeedChosen c agg p (some s) p1) :
    ∃ M, M < 4 ∧ c.nBnd[s]? = some M ∧ (∀ (i : Nat) b, c.nBnd[i]? = some b → agg[i]? = some false → b ≤ M) ∧
      (∀ j, j ≠ M → freeQ agg p1 j = freeQ agg p j) ∧
      (freeQ agg p M = s :: freeQ agg p1 M ∨ (freeQ agg p M = [] ∧ FreeOfLevel c agg M (s :: freeQ agg p1 M))) ∧
      p1.queues.length = 4 ∧ ∃ t, p1.top = some t := by
  have hq : ∀ {p : Pool} {k : Nat} {q : List Nat}, p.queues[k]? = some q →
      freeQ agg p k = q.filter (fun x => decide (agg[x]? = some false)) := by
    intro p k q hq; unfold freeQ; rw [hq]; rfl
  have hnone : ∀ {p1 : Pool}, p1.queues.length = p.queues.length → ∀ j, p.queues[j]? = none → freeQ agg p1 j = freeQ agg p j := by
    intro p1 hl j hj
    have : p1.queues[j]? = none := by
      rw [List.getElem?_eq_none_iff] at hj ⊢; omega
    unfold freeQ
    rw [hj, this]
  cases h with
  | @waiting t k s q rest p1 h1 h2 h3 h4 h5 h6 h7 h8 h9 =>
    have : k = t := by rw [hk] at h2; exact Nat.le_antisymm h3 h2
    subst this
    have e1 := hq h5
    rw [h6.filter] at e1
    have e2 := hq (h9 k q h5)
    rw [if_pos rfl] at e2
    have hlt : k < 4 := by rw [← hI.size]; exact (List.getElem?_eq_some_iff.1 h5).1
    refine ⟨k, hlt, hI.levels k s (by rw [e1]; simp), ?_, ?_, ?_, h8.trans hI.size, k, h7⟩
    · intro i b hb ha
      obtain ⟨t, ht, hle⟩ := hI.bounds i b hb ha
      rw [h1] at ht; cases ht
      exact hle
    · intro j hj
      cases hr : p.queues[j]? with
      | none => exact hnone h8 j hr
      | some r =>
        have := h9 j r hr
        rw [if_neg hj, if_neg (by omega)] at this
        rw [hq this, hq hr]
    · left; rw [e1, e2]
  | @otherLevel t cur s q rest p1 h1 h2 h3 h4 h5 h6 h7 h8 =>
    have hlt : cur < 4 := by rw [← hI.size]; exact (List.getElem?_eq_some_iff.1 h4).1
    have hmax : ∀ (i : Nat) b, c.nBnd[i]? = some b → agg[i]? = some false → b ≤ cur := by
      intro i b hb ha
      rcases h3 with ⟨j, _, _, g3, _⟩ | ⟨_, _, g⟩
      · obtain ⟨t', ht, hle⟩ := hI.bounds i b hb ha
        rw [h1] at ht; cases ht
        omega
      · exact g i b hb ha
    have e2 := hq (h8 cur q h4)
    rw [if_pos rfl] at e2
    have hoth : ∀ j, j ≠ cur → freeQ agg p1 j = freeQ agg p j := by
      intro j hj
      cases hr : p.queues[j]? with
      | none => exact hnone h7 j hr
      | some r =>
        have := h8 j r hr
        rw [if_neg hj] at this
        rw [hq this, hq hr]
        split
        · rename_i hjt
          rw [filter_none (h2 j r hjt.1 hjt.2 hr)]
          rfl
        · rfl
    rcases h5 with h5 | ⟨h5, h5'⟩
    · have e1 := hq h4
      rw [h5.filter] at e1
      exact ⟨cur, hlt, hI.levels cur s (by rw [e1]; simp), hmax, hoth, Or.inl (by rw [e1, e2]), h7.trans hI.size, cur, h6⟩
    · have e1 := hq h4
      rw [filter_none h5] at e1
      have e3 : rest.filter (fun x => decide (agg[x]? = some false)) = rest := by
        rw [List.filter_eq_self]
        intro x hx
        rw [decide_eq_true_iff]
        exact ((h5'.2 x).1 (by simp [hx])).2
      refine ⟨cur, hlt, ((h5'.2 s).1 (by simp)).1, hmax, hoth, Or.inr ⟨e1, ?_⟩, h7.trans hI.size, cur, h6⟩
      rw [e2, e3]
      exact h5'

/-- the seeds of level `k` of a group, in the order in which they join the queue -/
def LevelList (c : PoolCfg W) (k : Nat) (t : NSet) (l : List Nat) : Prop :=
  (∀ s, s ∈ l ↔ s ∈ t ∧ c.nBnd[s]? = some k) ∧ l.Pairwise (Before c.prio)

theorem JoinedInTurn.lists {c : PoolCfg W} (hk : c.kind = .boundary) {gs : List NSet} {p p' : Pool} (h : JoinedInTurn c gs p p') :
    p'.queues.length = p.queues.length ∧ ∀ (k : Nat) q, p.queues[k]? = some q →
      ∃ ls, List.Forall₂ (LevelList c k) gs ls ∧ p'.queues[k]? = some (q ++ ls.flatten) := by
  induction h with
  | none => exact ⟨rfl, fun k q hq => ⟨[], .nil, by simpa using hq⟩⟩
  | @next t gs p p1 p2 h1 _ ih =>
    refine ⟨ih.1.trans h1.size, fun k q hq => ?_⟩
    obtain ⟨l, g1, g2, g3⟩ := h1.queues k q hq
    obtain ⟨ls, g4, g5⟩ := ih.2 k _ g1
    have hlev : ∀ s ∈ l, c.nBnd[s]? = some k := by
      intro s hs
      obtain ⟨_, b, hb, e⟩ := (g2 s).1 hs
      rw [hk] at e
      cases e
      exact hb
    refine ⟨l :: ls, .cons ⟨fun s => ⟨fun hs => ⟨((g2 s).1 hs).1, hlev s hs⟩, fun hs => ?_⟩, ?_⟩ g4, ?_⟩
    · exact (g2 s).2 ⟨hs.1, k, hs.2, by rw [hk]; rfl⟩
    · refine List.Pairwise.imp_of_mem ?_ g3
      rintro x y hx hy ⟨bx, bny, e1, e2, h⟩
      rw [hlev x hx] at e1; rw [hlev y hy] at e2
      cases e1; cases e2
      rcases h with h | h
      · omega
      · exact h.2
    · rw [g5, List.flatten_cons, List.append_assoc]

/-- what a turn does to the free cells that wait: on each level `Q` before the cells of the coarse
cell leave and the new seeds `J` join; `Q` is what waited before, except that the highest level
may have been filled again -/
structure TurnOnFree (E : IsoEnv W F) (agg : List Bool) (p : Pool) (seed order : Nat) (s : NSet) (agg' : List Bool) (p2 : Pool)
    (M : Nat) (gs : List NSet) (Q J : Nat → List Nat) : Prop where
  lt : M < 4
  level : E.pool.nBnd[seed]? = some M
  max : ∀ (i : Nat) b, E.pool.nBnd[i]? = some b → agg[i]? = some false → b ≤ M
  other : ∀ j, j ≠ M → Q j = freeQ agg p j
  top : Q M = freeQ agg p M ∨ (freeQ agg p M = [] ∧ FreeOfLevel E.pool agg M (Q M))
  head : (Q M).head? = some seed
  seeds : NewSeeds E agg seed order s gs
  join : ∀ j, j < 4 → ∃ ls, List.Forall₂ (LevelList E.pool j) gs ls ∧ J j = ls.flatten
  after : ∀ j, j < 4 → freeQ agg' p2 j = (Q j).filter (fun x => !s.has x) ++ J j

theorem turn_onFree {E : IsoEnv W F} (hk : E.pool.kind = .boundary) {agg agg' : List Bool} {p p1 p2 : Pool} {seed order : Nat}
    {s : NSet} (hI : PoolInv E.pool agg p) (hc : SeedChosen E.pool agg p (some seed) p1) (hseed : seed ∈ s)
    (hq : SeedsQueued E agg seed order s p1 p2) (ha : ∀ i : Nat, agg'[i]? = if i ∈ s then some true else agg[i]?) :
    PoolInv E.pool agg' p2 ∧ ∃ M gs Q J, TurnOnFree E agg p seed order s agg' p2 M gs Q J := by
  obtain ⟨M, h1, h2, h3, h4, h5, h6, t, ht⟩ := hc.onFree hk hI
  have hb1 := hc.bounds hk hI.bounds
  obtain ⟨gs, g1, g2, g3, g4, g5⟩ := hq
  obtain ⟨l1, l2⟩ := g5.lists hk
  have hlen : p2.queues.length = 4 := l1.trans h6
  choose! ls hls1 hls2 using fun (j : Nat) (hj : j < 4) => l2 j _ (List.getElem?_eq_getElem (by omega : j < p1.queues.length))
  have hfree : ∀ x, (agg'[x]? = some false) ↔ agg[x]? = some false ∧ x ∉ s := by
    intro x
    rw [ha]
    by_cases hx : x ∈ s
    · simp [hx]
    · simp [hx]
  have hJ : ∀ j, j < 4 → ∀ x ∈ (ls j).flatten, agg'[x]? = some false ∧ E.pool.nBnd[x]? = some j := by
    intro j hj x hx
    obtain ⟨l, hl, hxl⟩ := List.mem_flatten.1 hx
    obtain ⟨t, ht, htl⟩ := Forall₂.mem_right (hls1 j hj) hl
    obtain ⟨e1, e2⟩ := (htl.1 x).1 hxl
    obtain ⟨f1, f2, _⟩ := (g2 x).1 ⟨t, ht, e1⟩
    exact ⟨(hfree x).2 ⟨f2, f1⟩, e2⟩
  let Q : Nat → List Nat := fun j => if j = M then seed :: freeQ agg p1 M else freeQ agg p j
  have hafter : ∀ j, j < 4 → freeQ agg' p2 j = (Q j).filter (fun x => !s.has x) ++ (ls j).flatten := by
    intro j hj
    have e1 : freeQ agg' p2 j = (freeQ agg p1 j).filter (fun x => !s.has x) ++ (ls j).flatten := by
      unfold freeQ
      rw [hls2 j hj, List.getElem?_eq_getElem (by omega : j < p1.queues.length), Option.getD_some, Option.getD_some,
        List.filter_append, List.filter_filter]
      congr 1
      · refine List.filter_congr (fun x _ => ?_)
        rw [Bool.eq_iff_iff]
        simp only [decide_eq_true_iff, Bool.and_eq_true, Bool.not_eq_true', hfree]
        rw [← Bool.not_eq_true, NSet.has_iff, and_comm]
      · rw [List.filter_eq_self]
        intro x hx
        rw [decide_eq_true_iff]
        exact (hJ j hj x hx).1
    rw [e1]
    congr 1
    show _ = (if j = M then seed :: freeQ agg p1 M else freeQ agg p j).filter _
    by_cases hjM : j = M
    · rw [if_pos hjM, hjM, List.filter_cons, if_neg (by simpa using (NSet.has_iff.2 hseed))]
    · rw [if_neg hjM, h4 j hjM]
  have hQlev : ∀ j, ∀ x ∈ Q j, E.pool.nBnd[x]? = some j := by
    intro j x hx
    by_cases hjM : j = M
    · subst hjM
      have hx' : x ∈ seed :: freeQ agg p1 j := by simpa [Q] using hx
      rcases h5 with h5 | ⟨_, h5⟩
      · exact hI.levels j x (by rw [h5]; exact hx')
      · exact ((h5.2 x).1 hx').1
    · have hx' : x ∈ freeQ agg p j := by simpa [Q, hjM] using hx
      exact hI.levels j x hx'
  refine ⟨⟨?_, ?_, hlen⟩, M, gs, Q, fun j => (ls j).flatten, h1, h2, h3, fun j hj => by simp [Q, hj], ?_, by simp [Q], ⟨g1, g2, g3, g4⟩,
    fun j hj => ⟨ls j, hls1 j hj, rfl⟩, hafter⟩
  · have hb2 := g5.bounds hk hb1
    intro i b hi hf
    exact hb2 i b hi ((hfree i).1 hf).1
  · intro k x hx
    by_cases hk4 : k < 4
    · rw [hafter k hk4] at hx
      rcases List.mem_append.1 hx with hx | hx
      · exact hQlev k x (List.mem_of_mem_filter hx)
      · exact (hJ k hk4 x hx).2
    · obtain ⟨⟨q, hq, _⟩, _⟩ := mem_freeQ.1 hx
      rw [List.getElem?_eq_none (by omega)] at hq
      cases hq
  · rcases h5 with h5 | h5
    · exact Or.inl (by simp [Q, h5])
    · exact Or.inr (by simpa [Q] using h5)

/-! ### The relation between the two runs -/

open Classical in
/-- the free cells of `K` that wait on level `k` -/
noncomputable def partQ (K : Nat → Prop) (agg : List Bool) (p : Pool) (k : Nat) : List Nat :=
  (freeQ agg p k).filter (fun x => decide (K x))

/-- the free cells of `K` of level `k`, by decreasing priority, then increasing index -/
def PartLevel (K : Nat → Prop) (c : PoolCfg W) (agg : List Bool) (k : Nat) (l : List Nat) : Prop :=
  PriorityOrdered c.prio l ∧ ∀ i : Nat, i ∈ l ↔ K i ∧ c.nBnd[i]? = some k ∧ agg[i]? = some false

/-- no free cell of `K` is above level `k` -/
def PartBound (K : Nat → Prop) (c : PoolCfg W) (agg : List Bool) (k : Nat) : Prop :=
  ∀ (i : Nat) b, K i → c.nBnd[i]? = some b → agg[i]? = some false → b ≤ k

/-- on `K` the states of two runs are the same, except that one of them may have filled the highest
level again and the other not yet -/
structure SameOnPart (K : Nat → Prop) (c : PoolCfg W) (agg : List Bool) (p : Pool) (agg' : List Bool) (p' : Pool) : Prop where
  flags : SameFlags K agg agg'
  queues : ∀ k, k < 4 → partQ K agg p k = partQ K agg' p' k ∨
    (PartBound K c agg k ∧ (partQ K agg p k = [] ∨ PartLevel K c agg k (partQ K agg p k)) ∧
      (partQ K agg' p' k = [] ∨ PartLevel K c agg k (partQ K agg' p' k)))

section
variable {K : Nat → Prop} {E E' : IsoEnv W F}

theorem mem_partQ {agg : List Bool} {p : Pool} {k x : Nat} : x ∈ partQ K agg p k ↔ x ∈ freeQ agg p k ∧ K x := by
  classical
  unfold partQ
  rw [List.mem_filter, decide_eq_true_iff]

theorem PartLevel.unique (hW : LawfulLt W) {c : PoolCfg W} {agg : List Bool} {k : Nat} {l l' : List Nat}
    (h : PartLevel K c agg k l) (h' : PartLevel K c agg k l') : l = l' :=
  ordered_unique (fun _ _ h1 h2 => Before.asymm hW h1 h2) h.1 h'.1 (fun x => (h.2 x).trans (h'.2 x).symm)

theorem PartLevel.part (h : PartEnv K E E') {agg agg' : List Bool} (ha : SameFlags K agg agg') {k : Nat} {l : List Nat}
    (hl : PartLevel K E.pool agg k l) : PartLevel K E'.pool agg' k l := by
  refine ⟨ordered_part h.prio (fun x hx => ((hl.2 x).1 hx).1) hl.1, fun i => (hl.2 i).trans ?_⟩
  constructor
  · rintro ⟨h1, h2, h3⟩; exact ⟨h1, by rw [h.poolBnd i h1]; exact h2, by rw [ha i h1]; exact h3⟩
  · rintro ⟨h1, h2, h3⟩; exact ⟨h1, by rw [← h.poolBnd i h1]; exact h2, by rw [← ha i h1]; exact h3⟩

theorem PartBound.part (h : PartEnv K E E') {agg agg' : List Bool} (ha : SameFlags K agg agg') {k : Nat}
    (hl : PartBound K E.pool agg k) : PartBound K E'.pool agg' k :=
  fun i b h1 h2 h3 => hl i b h1 (by rw [← h.poolBnd i h1]; exact h2) (by rw [← ha i h1]; exact h3)

theorem SameOnPart.symm (h : PartEnv K E E') {agg agg' : List Bool} {p p' : Pool} (hs : SameOnPart K E.pool agg p agg' p') :
    SameOnPart K E'.pool agg' p' agg p := by
  refine ⟨hs.flags.symm, fun k hk => ?_⟩
  rcases hs.queues k hk with g | ⟨g1, g2, g3⟩
  · exact Or.inl g.symm
  · exact Or.inr ⟨g1.part h hs.flags, g3.imp id (·.part h hs.flags), g2.imp id (·.part h hs.flags)⟩

open Classical in
theorem FreeOfLevel.onPart {c : PoolCfg W} {agg : List Bool} {k : Nat} {l : List Nat} (h : FreeOfLevel c agg k l) :
    PartLevel K c agg k (l.filter (fun x => decide (K x))) := by
  refine ⟨List.Pairwise.filter _ h.1, fun i => ?_⟩
  rw [List.mem_filter, h.2, decide_eq_true_iff, and_comm]

/-- a turn outside `K` changes nothing on `K` -/
theorem SameOnPart.outside {agg agg2 agg' : List Bool} {p p2 p' : Pool} {seed order M : Nat} {s : NSet} {gs : List NSet}
    {Q J : Nat → List Nat} (hs : SameOnPart K E.pool agg p agg' p') (ht : TurnOnFree E agg p seed order s agg2 p2 M gs Q J)
    (hK : ∀ x ∈ s, ¬ K x) (hJ : ∀ t ∈ gs, ∀ x ∈ t, ¬ K x) (ha : ∀ i : Nat, agg2[i]? = if i ∈ s then some true else agg[i]?) :
    SameOnPart K E.pool agg2 p2 agg' p' := by
  classical
  have hflags : SameFlags K agg agg2 := fun i hi => by rw [ha, if_neg (fun hc => hK i hc hi)]
  have hfl : ∀ i : Nat, K i → agg2[i]? = agg[i]? := hflags
  have hbound : ∀ {k}, PartBound K E.pool agg k → PartBound K E.pool agg2 k :=
    fun hb i b h1 h2 h3 => hb i b h1 h2 (by rw [← hfl i h1]; exact h3)
  have hlevel : ∀ {k l}, PartLevel K E.pool agg k l → PartLevel K E.pool agg2 k l := by
    intro k l hl
    refine ⟨hl.1, fun i => (hl.2 i).trans ⟨?_, ?_⟩⟩
    · rintro ⟨h1, h2, h3⟩; exact ⟨h1, h2, by rw [hfl i h1]; exact h3⟩
    · rintro ⟨h1, h2, h3⟩; exact ⟨h1, h2, by rw [← hfl i h1]; exact h3⟩
  have hq : ∀ j, j < 4 → partQ K agg2 p2 j = (Q j).filter (fun x => decide (K x)) := by
    intro j hj
    unfold partQ
    rw [ht.after j hj, List.filter_append, List.filter_filter]
    have e1 : (J j).filter (fun x => decide (K x)) = [] := by
      rw [List.filter_eq_nil_iff]
      intro x hx
      obtain ⟨ls, g1, g2⟩ := ht.join j hj
      rw [g2] at hx
      obtain ⟨l, hl, hxl⟩ := List.mem_flatten.1 hx
      obtain ⟨t, ht, htl⟩ := Forall₂.mem_right g1 hl
      rw [decide_eq_true_iff]
      exact hJ t ht x ((htl.1 x).1 hxl).1
    rw [e1, List.append_nil]
    refine List.filter_congr (fun x _ => ?_)
    by_cases hx : K x
    · have : s.has x = false := NSet.has_false_iff.2 (fun hc => hK x hc hx)
      simp [hx, this]
    · simp [hx]
  refine ⟨fun i hi => by rw [hfl i hi]; exact hs.flags i hi, fun k hk => ?_⟩
  by_cases hkM : k = M
  · subst hkM
    rcases ht.top with h1 | ⟨h1, h2⟩
    · rw [hq k hk, h1]
      exact (hs.queues k hk).imp id (fun g => ⟨hbound g.1, g.2.1.imp id hlevel, g.2.2.imp id hlevel⟩)
    · have hold : partQ K agg p k = [] := by unfold partQ; rw [h1]; rfl
      have hnew := hlevel h2.onPart
      rw [← hq k hk] at hnew
      right
      refine ⟨hbound (fun i b _ h4 h5 => ht.max i b h4 h5), Or.inr hnew, ?_⟩
      rcases hs.queues k hk with g | g
      · left; rw [← g, hold]
      · exact g.2.2.imp id hlevel
  · rw [hq k hk, ht.other k hkM]
    exact (hs.queues k hk).imp id (fun g => ⟨hbound g.1, g.2.1.imp id hlevel, g.2.2.imp id hlevel⟩)

open Classical in
/-- what waits on the highest level of `K` when a turn inside `K` begins is the same in both runs -/
theorem SameOnPart.inside_top (hW : LawfulLt W) (h : PartEnv K E E') {agg agg2 agg' agg2' : List Bool} {p p2 p' p2' : Pool}
    {seed order M seed' order' M' : Nat} {s s' : NSet} {gs gs' : List NSet}
    {Q J Q' J' : Nat → List Nat} (hs : SameOnPart K E.pool agg p agg' p') (ht : TurnOnFree E agg p seed order s agg2 p2 M gs Q J)
    (ht' : TurnOnFree E' agg' p' seed' order' s' agg2' p2' M' gs' Q' J') (hseed : K seed) (hseed' : K seed')
    (hf : agg[seed]? = some false) (hf' : agg'[seed']? = some false) :
    M = M' ∧ seed = seed' ∧ (∀ j, j < 4 → (Q j).filter (fun x => decide (K x)) = (Q' j).filter (fun x => decide (K x))) := by
  classical
  have hM : M = M' := by
    have h1 := ht'.max seed M (by rw [h.poolBnd _ hseed]; exact ht.level) (by rw [hs.flags _ hseed]; exact hf)
    have h2 := ht.max seed' M' (by rw [← h.poolBnd _ hseed']; exact ht'.level) (by rw [← hs.flags _ hseed']; exact hf')
    omega
  subst hM
  have hlt := ht.lt
  -- the highest level
  have hne : ∀ {q : List Nat} {x : Nat}, q.head? = some x → K x → ∃ r, q.filter (fun x => decide (K x)) = x :: r := by
    intro q x hq hx
    cases q with
    | nil => cases hq
    | cons y q =>
      simp only [List.head?_cons, Option.some.injEq] at hq
      subst hq
      exact ⟨q.filter (fun x => decide (K x)), by rw [List.filter_cons, if_pos (decide_eq_true hx)]⟩
  have hfull : ∀ {l : List Nat}, PartLevel K E'.pool agg' M l → PartLevel K E.pool agg M l := fun hl => hl.part h.symm hs.flags.symm
  have htop : (Q M).filter (fun x => decide (K x)) = (Q' M).filter (fun x => decide (K x)) := by
    have c1 : (Q M).filter (fun x => decide (K x)) = partQ K agg p M ∨
        (partQ K agg p M = [] ∧ PartLevel K E.pool agg M ((Q M).filter (fun x => decide (K x)))) := by
      rcases ht.top with g | ⟨g1, g2⟩
      · left; rw [g]; unfold partQ; congr
      · right; refine ⟨?_, g2.onPart⟩; unfold partQ; rw [g1]; rfl
    have c2 : (Q' M).filter (fun x => decide (K x)) = partQ K agg' p' M ∨
        (partQ K agg' p' M = [] ∧ PartLevel K E.pool agg M ((Q' M).filter (fun x => decide (K x)))) := by
      rcases ht'.top with g | ⟨g1, g2⟩
      · left; rw [g]; unfold partQ; congr
      · right; refine ⟨?_, hfull g2.onPart⟩; unfold partQ; rw [g1]; rfl
    obtain ⟨r, hr⟩ := hne ht.head hseed
    obtain ⟨r', hr'⟩ := hne ht'.head hseed'
    rcases hs.queues M hlt with g | ⟨_, g2, g3⟩
    · rcases c1 with c1 | ⟨c1, c1'⟩
      · rcases c2 with c2 | ⟨c2, _⟩
        · rw [c1, c2, g]
        · rw [c1, g, c2] at hr; cases hr
      · rcases c2 with c2 | ⟨_, c2'⟩
        · rw [c2, ← g, c1] at hr'; cases hr'
        · exact c1'.unique hW c2'
    · have d1 : PartLevel K E.pool agg M ((Q M).filter (fun x => decide (K x))) := by
        rcases c1 with c1 | ⟨_, c1'⟩
        · rcases g2 with g2 | g2
          · rw [c1, g2] at hr; cases hr
          · rw [c1]; exact g2
        · exact c1'
      have d2 : PartLevel K E.pool agg M ((Q' M).filter (fun x => decide (K x))) := by
        rcases c2 with c2 | ⟨_, c2'⟩
        · rcases g3 with g3 | g3
          · rw [c2, g3] at hr'; cases hr'
          · rw [c2]; exact g3
        · exact c2'
      exact d1.unique hW d2
  have hsd : seed = seed' := by
    obtain ⟨r, hr⟩ := hne ht.head hseed
    obtain ⟨r', hr'⟩ := hne ht'.head hseed'
    rw [hr, hr'] at htop
    exact (List.cons.inj htop).1
  refine ⟨rfl, hsd, ?_⟩
  intro j hj
  by_cases hjM : j = M
  · subst hjM; exact htop
  · rw [ht.other j hjM, ht'.other j hjM]
    rcases hs.queues j hj with g | ⟨g1, g2, g3⟩
    · exact g
    · have hgt := g1 seed M hseed ht.level hf
      have hnil : ∀ {l}, PartLevel K E.pool agg j l → l = [] := by
        intro l hl
        rw [List.eq_nil_iff_forall_not_mem]
        intro x hx
        obtain ⟨_, h2, h3⟩ := (hl.2 x).1 hx
        have := ht.max x j h2 h3
        omega
      have k1 : partQ K agg p j = [] := g2.elim id hnil
      have k2 : partQ K agg' p' j = [] := g3.elim id hnil
      exact k1.trans k2.symm

theorem LevelList.unique (hW : LawfulLt W) (h : PartEnv K E E') {k : Nat} {t : NSet} (ht : ∀ x ∈ t, K x) {l l' : List Nat}
    (hl : LevelList E.pool k t l) (hl' : LevelList E'.pool k t l') : l = l' := by
  refine ordered_unique (R := Before E.pool.prio) (fun _ _ h1 h2 => Before.asymm hW h1 h2) hl.2 ?_ (fun x => ?_)
  · exact List.Pairwise.imp_of_mem (fun hx hy hb =>
      (before_part h.prio (ht _ ((hl'.1 _).1 hx).1) (ht _ ((hl'.1 _).1 hy).1)).1 hb) hl'.2
  · rw [hl.1, hl'.1]
    refine and_congr_right (fun hx => ?_)
    rw [h.poolBnd x (ht x hx)]

theorem NewSeeds.part (h : PartEnv K E E') {agg agg' : List Bool} (ha : SameFlags K agg agg') {seed order : Nat} {s : NSet}
    {gs : List NSet} (hseed : K seed) (hs : ∀ x ∈ s, K x) (hg : NewSeeds E agg seed order s gs) :
    NewSeeds E' agg' seed order s gs ∧ ∀ t ∈ gs, ∀ x ∈ t, K x := by
  have hR := h.graph.free ha
  have hK : ∀ t ∈ gs, ∀ x ∈ t, K x := by
    intro t ht x hx
    obtain ⟨_, _, y, hy, hadj⟩ := (hg.mem x).1 ⟨t, ht, hx⟩
    exact h.graph.closed y x (hs y hy) hadj
  refine ⟨⟨hg.ne, fun x => (hg.mem x).trans ?_, ?_, ?_⟩, hK⟩
  · constructor
    · rintro ⟨h1, h2, y, hy, hadj⟩
      exact ⟨h1, by rw [ha x (h.graph.closed y x (hs y hy) hadj)]; exact h2, y, hy, (h.graph.adj (hs y hy)).2 hadj⟩
    · rintro ⟨h1, h2, y, hy, hadj⟩
      have hadj' := (h.graph.adj (hs y hy)).1 hadj
      exact ⟨h1, by rw [← ha x (h.graph.closed y x (hs y hy) hadj')]; exact h2, y, hy, hadj'⟩
  · intro t ht x hx y hy k l hk hl
    exact hg.same t ht x hx y hy k l ((hR.dist_iff hseed).1 hk) ((hR.dist_iff hseed).1 hl)
  · exact hg.sorted.imp (fun g x hx y hy k l hk hl => g x hx y hy k l ((hR.dist_iff hseed).1 hk) ((hR.dist_iff hseed).1 hl))

/-- turns inside `K` of both runs take the same seed and make the same coarse cell -/
theorem SameOnPart.inside (hW : LawfulLt W) (h : PartEnv K E E') {agg agg2 agg' agg2' : List Bool} {p p2 p' p2' : Pool}
    {seed order M seed' order' M' : Nat} {s s' : NSet} {gs gs' : List NSet}
    {Q J Q' J' : Nat → List Nat} (hs : SameOnPart K E.pool agg p agg' p') (ht : TurnOnFree E agg p seed order s agg2 p2 M gs Q J)
    (ht' : TurnOnFree E' agg' p' seed' order' s' agg2' p2' M' gs' Q' J') (hseed : K seed) (hseed' : K seed')
    (hf : agg[seed]? = some false) (hf' : agg'[seed']? = some false)
    (hc : GrownCell E (GrownGreedily E) agg seed order s) (hc' : GrownCell E' (GrownGreedily E') agg' seed' order' s')
    (ha : ∀ i : Nat, agg2[i]? = if i ∈ s then some true else agg[i]?)
    (ha' : ∀ i : Nat, agg2'[i]? = if i ∈ s' then some true else agg'[i]?) :
    seed = seed' ∧ s = s' ∧ SameOnPart K E.pool agg2 p2 agg2' p2' := by
  classical
  obtain ⟨rfl, rfl, hQ⟩ := hs.inside_top hW h ht ht' hseed hseed' hf hf'
  obtain ⟨g1, g2⟩ := hc.part h hs.flags hseed
  obtain ⟨rfl, hl, hr, hsd⟩ := g1.unique (determined_greedy hW E') hc'
  obtain ⟨k1, k2⟩ := ht.seeds.part h hs.flags hseed g2
  obtain rfl := k1.unique hl hr hsd ht'.seeds
  refine ⟨rfl, rfl, ⟨fun i hi => by rw [ha, ha', hs.flags i hi], fun j hj => Or.inl ?_⟩⟩
  have hJ : J j = J' j := by
    obtain ⟨ls, e1, e2⟩ := ht.join j hj
    obtain ⟨ls', e1', e2'⟩ := ht'.join j hj
    rw [e2, e2']
    congr 1
    clear e2 e2' ht ht' k1
    induction e1 generalizing ls' with
    | nil => cases e1'; rfl
    | @cons t l gs ls h1 _ ih =>
      cases e1' with
      | cons h1' h2' =>
        rw [LevelList.unique hW h (k2 t (by simp)) h1 h1', ih (fun t ht => k2 t (by simp [ht])) _ h2']
  unfold partQ
  rw [ht.after j hj, ht'.after j hj, hJ, List.filter_append, List.filter_append, List.filter_filter, List.filter_filter]
  congr 1
  have := congrArg (List.filter (fun x => !s.has x)) (hQ j hj)
  rw [List.filter_filter, List.filter_filter] at this
  simpa only [Bool.and_comm] using this

theorem GrownCell.holds_seed {Grown : NMap Nat → Nat → List Nat → Prop} (hmin : 0 < E.minCard) {agg : List Bool} {seed order : Nat}
    {s : NSet} (h : GrownCell E Grown agg seed order s) : seed ∈ s := by
  obtain ⟨d, _, _, _, h4, h5⟩ := h
  by_cases hg : d.size + 1 < E.goalCard
  · exact (h4 hg seed).2 (Or.inl rfl)
  · obtain ⟨xs, κ, m, g1, g2, g3, g4, g5, g6, g7⟩ := h5 (by omega)
    rw [g7, NSet.mem_ofList]
    have hm := g6.1
    cases xs with
    | nil => cases g2
    | cons y xs =>
      simp only [List.head?_cons, Option.some.injEq] at g2
      subst g2
      cases m with
      | zero => omega
      | succ m => simp

/-- a run keeps what holds of its pool -/
theorem IsoTrace.poolInv {Grown : NMap Nat → Nat → List Nat → Prop} (hk : E.pool.kind = .boundary) (hmin : 0 < E.minCard)
    {agg0 agg : List Bool} {p0 p : Pool} {cs : List (Nat × NSet)} (h0 : PoolInv E.pool agg0 p0)
    (ht : IsoTrace E Grown agg0 p0 cs agg p) : PoolInv E.pool agg p := by
  induction ht with
  | start => exact h0
  | turn _ h2 h3 h4 h5 ih => exact (turn_onFree hk ih h2 (h3.holds_seed hmin) h4 h5).1

/-- what the two runs and the part `K` have in common -/
structure PartRuns (K : Nat → Prop) (E E' : IsoEnv W F) : Prop where
  law : LawfulLt W
  env : PartEnv K E E'
  kind : E.pool.kind = .boundary
  kind' : E'.pool.kind = .boundary
  pos : 0 < E.minCard
  apart : ∀ i j, ¬ K i → Adj E.g.rowPtr E.g.colInd i j → ¬ K j
  apart' : ∀ i j, ¬ K i → Adj E'.g.rowPtr E'.g.colInd i j → ¬ K j

theorem PartRuns.symm (h : PartRuns K E E') : PartRuns K E' E :=
  ⟨h.law, h.env.symm, h.kind', h.kind, by rw [h.env.minCard]; exact h.pos, h.apart', h.apart⟩

theorem PartRuns.out (h : PartRuns K E E') {agg : List Bool} {seed order : Nat} {s : NSet}
    (hc : GrownCell E (GrownGreedily E) agg seed order s) (hseed : ¬ K seed) : ∀ x ∈ s, ¬ K x := by
  intro x hx
  obtain ⟨k, w, rfl, hw⟩ := (hc.unique (determined_greedy h.law E) hc).2.2.1 x hx
  exact (walk_part (K := fun x => ¬ K x) (R := FreeAdj E.g.rowPtr E.g.colInd agg) (R' := fun _ _ => True)
    (fun x y h1 h2 => ⟨h.apart x y h1 h2.1, trivial⟩) hw hseed).1

/-- one turn of a run, outside `K` -/
theorem PartRuns.turn_out (h : PartRuns K E E') {agg agg2 agg' : List Bool} {p p1 p2 p' : Pool} {seed order : Nat} {s : NSet}
    (hI : PoolInv E.pool agg p) (hs : SameOnPart K E.pool agg p agg' p')
    (h2 : SeedChosen E.pool agg p (some seed) p1) (h3 : GrownCell E (GrownGreedily E) agg seed order s)
    (h4 : SeedsQueued E agg seed order s p1 p2) (h5 : ∀ i : Nat, agg2[i]? = if i ∈ s then some true else agg[i]?)
    (hseed : ¬ K seed) : SameOnPart K E.pool agg2 p2 agg' p' := by
  obtain ⟨_, M, gs, Q, J, ht⟩ := turn_onFree h.kind hI h2 (h3.holds_seed h.pos) h4 h5
  have hout := h.out h3 hseed
  refine hs.outside ht hout ?_ h5
  intro t htm x hx
  obtain ⟨_, _, y, hy, hadj⟩ := (ht.seeds.mem x).1 ⟨t, htm, hx⟩
  exact h.apart y x (hout y hy) hadj

open Classical in
/-- the coarse cells of a run that are in `K` -/
noncomputable def inPart (K : Nat → Prop) (cs : List (Nat × NSet)) : List (Nat × NSet) := cs.filter (fun x => decide (K x.1))

theorem inPart_in {cs : List (Nat × NSet)} {x : Nat × NSet} (h : K x.1) : inPart K (cs ++ [x]) = inPart K cs ++ [x] := by
  classical
  unfold inPart
  rw [List.filter_append, List.filter_cons, if_pos (decide_eq_true h)]
  rfl

theorem inPart_out {cs : List (Nat × NSet)} {x : Nat × NSet} (h : ¬ K x.1) : inPart K (cs ++ [x]) = inPart K cs := by
  classical
  unfold inPart
  rw [List.filter_append, List.filter_cons, if_neg (by simpa using h)]
  simp

/-- two runs with as many turns inside `K` have made the same turns there -/
theorem PartRuns.trace (h : PartRuns K E E') {agg0 agg0' : List Bool} {p0 p0' : Pool} (h0 : PoolInv E.pool agg0 p0)
    (h0' : PoolInv E'.pool agg0' p0') (hs0 : SameOnPart K E.pool agg0 p0 agg0' p0')
    {cs : List (Nat × NSet)} {agg : List Bool} {p : Pool} (ht : IsoTrace E (GrownGreedily E) agg0 p0 cs agg p) :
    ∀ {cs' : List (Nat × NSet)} {agg' : List Bool} {p' : Pool}, IsoTrace E' (GrownGreedily E') agg0' p0' cs' agg' p' →
      (inPart K cs).length = (inPart K cs').length → inPart K cs = inPart K cs' ∧ SameOnPart K E.pool agg p agg' p' := by
  induction ht with
  | start =>
    intro cs' agg' p' ht' hlen
    induction ht' with
    | start => exact ⟨rfl, hs0⟩
    | @turn cs agg agg2 p p1 p2 seed order s h1 h2 h3 h4 h5 ih =>
      by_cases hK : K seed
      · rw [inPart_in (K := K) (x := (seed, s)) hK] at hlen
        simp [inPart] at hlen
      · rw [inPart_out (K := K) (x := (seed, s)) hK] at hlen ⊢
        obtain ⟨i1, i2⟩ := ih hlen
        have := h.symm.turn_out (h1.poolInv h.kind' h.symm.pos h0') (i2.symm h.env) h2 h3 h4 h5 hK
        exact ⟨i1, this.symm h.env.symm⟩
  | @turn cs agg agg2 p p1 p2 seed order s h1 h2 h3 h4 h5 ih =>
    intro cs' agg' p' ht' hlen
    have hI := h1.poolInv h.kind h.pos h0
    by_cases hK : K seed
    · rw [inPart_in (K := K) (x := (seed, s)) hK] at hlen ⊢
      induction ht' with
      | start => simp [inPart] at hlen
      | @turn cs' agg' agg2' p' p1' p2' seed' order' s' h1' h2' h3' h4' h5' ih' =>
        have hI' := h1'.poolInv h.kind' h.symm.pos h0'
        by_cases hK' : K seed'
        · rw [inPart_in (K := K) (x := (seed', s')) hK'] at hlen ⊢
          obtain ⟨i1, i2⟩ := ih h1' (by simpa using hlen)
          obtain ⟨_, M, gs, Q, J, t1⟩ := turn_onFree h.kind hI h2 (h3.holds_seed h.pos) h4 h5
          obtain ⟨_, M', gs', Q', J', t1'⟩ := turn_onFree h.kind' hI' h2' (h3'.holds_seed h.symm.pos) h4' h5'
          obtain ⟨rfl, rfl, k⟩ := i2.inside h.law h.env t1 t1' hK hK' h2.free h2'.free h3 h3' h5 h5'
          exact ⟨by rw [i1], k⟩
        · rw [inPart_out (K := K) (x := (seed', s')) hK'] at hlen ⊢
          obtain ⟨i1, i2⟩ := ih' hlen
          have := h.symm.turn_out hI' (i2.symm h.env) h2' h3' h4' h5' hK'
          exact ⟨i1, this.symm h.env.symm⟩
    · rw [inPart_out (K := K) (x := (seed, s)) hK] at hlen ⊢
      obtain ⟨i1, i2⟩ := ih ht' hlen
      exact ⟨i1, h.turn_out hI i2 h2 h3 h4 h5 hK⟩

/-- a run with fewer turns inside `K`, before another one -/
theorem IsoTrace.before_part {G : NMap Nat → Nat → List Nat → Prop} {agg0 : List Bool} {p0 : Pool} {cs : List (Nat × NSet)}
    {agg : List Bool} {p : Pool} (h : IsoTrace E G agg0 p0 cs agg p) {k : Nat} (hk : k < (inPart K cs).length) :
    ∃ cs' agg' p' seed p1, IsoTrace E G agg0 p0 cs' agg' p' ∧ (inPart K cs').length = k ∧ K seed ∧
      SeedChosen E.pool agg' p' (some seed) p1 := by
  induction h with
  | start => simp [inPart] at hk
  | @turn cs agg agg2 p p1 p2 seed order s h1 h2 h3 h4 h5 ih =>
    by_cases hk' : k < (inPart K cs).length
    · exact ih hk'
    · by_cases hK : K seed
      · rw [inPart_in (K := K) (x := (seed, s)) hK] at hk
        simp only [List.length_append, List.length_cons, List.length_nil] at hk
        exact ⟨cs, agg, p, seed, p1, h1, by omega, hK, h2⟩
      · rw [inPart_out (K := K) (x := (seed, s)) hK] at hk
        exact absurd hk hk'

/-- complete runs have the same coarse cells in `K`, in the same order -/
theorem PartRuns.complete (h : PartRuns K E E') {agg0 agg0' : List Bool} {p0 p0' : Pool} (h0 : PoolInv E.pool agg0 p0)
    (h0' : PoolInv E'.pool agg0' p0') (hs0 : SameOnPart K E.pool agg0 p0 agg0' p0')
    {cs cs' : List (Nat × NSet)} {agg agg' : List Bool} {p p' : Pool} (ht : IsoTrace E (GrownGreedily E) agg0 p0 cs agg p)
    (ht' : IsoTrace E' (GrownGreedily E') agg0' p0' cs' agg' p') (hall : ∀ b ∈ agg, b = true) (hall' : ∀ b ∈ agg', b = true) :
    inPart K cs = inPart K cs' := by
  rcases Nat.lt_trichotomy (inPart K cs).length (inPart K cs').length with hlt | he | hlt
  · obtain ⟨cs2, agg2, p2, seed, p3, k1, k2, k3, k4⟩ := ht'.before_part (K := K) hlt
    have hf := (h.trace h0 h0' hs0 ht k1 k2.symm).2.flags seed k3
    rw [k4.free] at hf
    cases hall _ (List.mem_of_getElem? hf.symm)
  · exact (h.trace h0 h0' hs0 ht ht' he).1
  · obtain ⟨cs2, agg2, p2, seed, p3, k1, k2, k3, k4⟩ := ht.before_part (K := K) hlt
    have hf := (h.trace h0 h0' hs0 k1 ht' k2).2.flags seed k3
    rw [k4.free] at hf
    cases hall' _ (List.mem_of_getElem? hf)

end

end CoMMA
