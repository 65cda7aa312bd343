import Verif.Lemmas.Numbering
/-! # With neighbourhood priority the cells next to the coarse cells wait in the queues -/

set_option linter.unusedSectionVars false

namespace CoMMA

variable {W F : Type} [Num W]

/-- all free neighbours of the cells taken wait, no higher than the level in use; what waits is
next to a cell taken, or one of the cells `I` -/
structure FrontInv (g : Graph W) (I : List Nat) (n : Nat) (agg : List Bool) (p : Pool) : Prop where
  flags : ∀ x : Nat, agg[x]? = some false → x < n
  long : n ≤ agg.length
  border : ∃ t, p.top = some t ∧ t < p.queues.length ∧
    (∀ x y : Nat, agg[x]? = some true → Adj g.rowPtr g.colInd x y → agg[y]? = some false →
      ∃ (k : Nat) (q : List Nat), k ≤ t ∧ p.queues[k]? = some q ∧ y ∈ q) ∧
    ((∃ x : Nat, x < n ∧ agg[x]? = some true) ∨ ¬ NoneWaiting agg p 0 t)
  source : ∀ (k : Nat) (q : List Nat) (y : Nat), p.queues[k]? = some q → y ∈ q →
    y ∈ I ∨ ∃ x : Nat, agg[x]? = some true ∧ Adj g.rowPtr g.colInd x y

/-- on the way from a taken cell to a free one there is a face between a taken and a free cell -/
theorem walk_crosses {R : Nat → Nat → Prop} {P Q : Nat → Prop} (hd : ∀ x y, R x y → P y ∨ Q y) {k x y : Nat} (h : Walk R k x y) (hx : P x)
    (hy : ¬ P y) : ∃ u v, R u v ∧ P u ∧ Q v := by
  induction h with
  | nil => exact absurd hx hy
  | @step k x u v hw hr ih =>
    by_cases hu : P u
    · rcases hd _ _ hr with h | h
      · exact absurd h hy
      · exact ⟨u, v, hr, hu, h⟩
    · exact ih hx hu

theorem FrontInv.waits {g : Graph W} {I : List Nat} {n : Nat} {agg : List Bool} {p : Pool} (h : FrontInv g I n agg p)
    (hg : ValidCRS n g.rowPtr g.colInd)
    (hc : ConnectedMesh n g.rowPtr g.colInd) {s : Nat} (hs : agg[s]? = some false) :
    ∃ t, p.top = some t ∧ ¬ NoneWaiting agg p 0 t := by
  obtain ⟨t, h1, _, h3, h4⟩ := h.border
  refine ⟨t, h1, ?_⟩
  rcases h4 with ⟨x, hx, hx'⟩ | h4
  · obtain ⟨k, hw⟩ := hc x s hx (h.flags s hs)
    obtain ⟨u, v, hr, hu, hv⟩ := walk_crosses (P := fun z => agg[z]? = some true) (Q := fun z => agg[z]? = some false) (by
      intro x y hxy
      have hy : y < n := (hg.adj_lt hxy).2
      have : y < agg.length := by have := h.long; omega
      rw [List.getElem?_eq_getElem this]
      cases agg[y] <;> simp) hw hx' (by rw [hs]; simp)
    obtain ⟨k, q, h5, h6, h7⟩ := h3 u v hu hr hv
    intro hn
    have := hn k q (Nat.zero_le _) h5 h6 v h7
    rw [hv] at this
    cases this
  · exact h4

/-- seeds that join, with neighbourhood priority -/
theorem JoinedInTurn.near {c : PoolCfg W} (hk : c.kind = .neighbourhood) {gs : List NSet} {p p' : Pool} (h : JoinedInTurn c gs p p')
    {t : Nat} (ht : p.top = some t) (hl : t < p.queues.length) :
    p'.top = some t ∧ p'.queues.length = p.queues.length ∧
    (∀ (k : Nat) (q : List Nat), p.queues[k]? = some q → ∃ l, p'.queues[k]? = some (q ++ l) ∧ ∀ x ∈ l, ∃ s ∈ gs, x ∈ s) ∧
    (∀ s ∈ gs, ∀ x ∈ s, ∀ b, c.nBnd[x]? = some b → ∃ (k : Nat) (q : List Nat), k ≤ t ∧ p'.queues[k]? = some q ∧ x ∈ q) := by
  induction h with
  | none =>
    exact ⟨ht, rfl, fun k q hq => ⟨[], by rw [List.append_nil]; exact hq, by simp⟩, by simp⟩
  | @next s gs p p1 p2 h1 h2 ih =>
    have ht1 : p1.top = some t := by rw [h1.keep (Or.inl hk), ht]
    obtain ⟨i1, i2, i3, i4⟩ := ih ht1 (by rw [h1.size]; exact hl)
    refine ⟨i1, by rw [i2, h1.size], ?_, ?_⟩
    · intro k q hq
      obtain ⟨l, g1, g2, _⟩ := h1.queues k q hq
      obtain ⟨l', g3, g4⟩ := i3 k _ g1
      refine ⟨l ++ l', by rw [g3, List.append_assoc], ?_⟩
      intro x hx
      rcases List.mem_append.1 hx with hx | hx
      · exact ⟨s, List.mem_cons_self .., ((g2 x).1 hx).1⟩
      · obtain ⟨u, hu, hxu⟩ := g4 x hx
        exact ⟨u, List.mem_cons_of_mem _ hu, hxu⟩
    · intro u hu x hx b hb
      rcases List.mem_cons.1 hu with rfl | hu
      · have hkt : seedLevel c.kind p.top b ≤ t := by rw [hk, ht]; exact Nat.min_le_right _ _
        obtain ⟨q, hq⟩ : ∃ q, p.queues[seedLevel c.kind p.top b]? = some q :=
          ⟨_, List.getElem?_eq_getElem (by omega)⟩
        obtain ⟨l, g1, g2, _⟩ := h1.queues _ q hq
        obtain ⟨l', g3, _⟩ := i3 _ _ g1
        exact ⟨_, _, hkt, g3, List.mem_append_left _ (List.mem_append_right _ ((g2 x).2 ⟨hx, b, hb, rfl⟩))⟩
      · exact i4 u hu x hx b hb

theorem FrontInv.step {E : IsoEnv W F} {I : List Nat} {n : Nat} {agg agg' : List Bool} {p p1 p2 : Pool}
    (h : FrontInv E.g I n agg p) (hk : E.pool.kind = .neighbourhood) (hB : ∀ x < n, ∃ b, E.pool.nBnd[x]? = some b)
    (hg : ValidCRS n E.g.rowPtr E.g.colInd) (hc : ConnectedMesh n E.g.rowPtr E.g.colInd) {seed order : Nat} {s : NSet}
    (hs : SeedChosen E.pool agg p (some seed) p1)
    (hm : seed ∈ s) (hq : SeedsQueued E agg seed order s p1 p2)
    (ha : ∀ i : Nat, agg'[i]? = if i ∈ s then some true else agg[i]?) :
    FrontInv E.g I n agg' p2 ∧ (seed ∈ I ∨ ∃ x : Nat, agg[x]? = some true ∧ Adj E.g.rowPtr E.g.colInd x seed) := by
  have hfree := hs.free
  obtain ⟨t, w1, w2⟩ := h.waits hg hc hfree
  obtain ⟨t', b1, b2, b3, b4⟩ := h.border
  rw [w1] at b1
  cases b1
  cases hs with
  | @otherLevel t1 cur s1 q rest p1 h1 h2 h3 h4 h5 h6 h7 h8 =>
    rw [w1] at h1
    cases h1
    rw [hk] at h2
    exact absurd h2 w2
  | @waiting t1 k s1 q rest p1 h1 h2 h3 h4 h5 h6 h7 h8 h9 =>
    rw [w1] at h1
    cases h1
    obtain ⟨pre, e1, e2, e3⟩ := h6
    obtain ⟨gs, _, q1, _, _, q2⟩ := hq
    obtain ⟨j1, j2, j3, j4⟩ := q2.near hk h7 (by omega)
    have back : ∀ x : Nat, agg'[x]? = some false → agg[x]? = some false ∧ x ∉ s := by
      intro x hx
      rw [ha] at hx
      by_cases hxs : x ∈ s
      · rw [if_pos hxs] at hx; cases hx
      · rw [if_neg hxs] at hx; exact ⟨hx, hxs⟩
    have fwd : ∀ x : Nat, agg[x]? = some true → agg'[x]? = some true := by
      intro x hx
      rw [ha]
      split
      · rfl
      · exact hx
    refine ⟨⟨fun x hx => h.flags x (back x hx).1, ?_, ⟨k, j1, by omega, ?_, ?_⟩, ?_⟩, ?_⟩
    · by_contra hlt
      have h10 := ha agg'.length
      rw [List.getElem?_eq_none (Nat.le_refl _)] at h10
      by_cases hxs : agg'.length ∈ s
      · rw [if_pos hxs] at h10; cases h10
      · rw [if_neg hxs] at h10
        have := List.getElem?_eq_none_iff.1 h10.symm
        have := h.long
        omega
    · intro x y hx hxy hy
      obtain ⟨hy1, hy2⟩ := back y hy
      by_cases hxs : x ∈ s
      · obtain ⟨u, hu, hyu⟩ := (q1 y).2 ⟨hy2, hy1, x, hxs, hxy⟩
        obtain ⟨b, hb⟩ := hB y (h.flags y hy1)
        exact j4 u hu y hyu b hb
      · rw [ha, if_neg hxs] at hx
        obtain ⟨k0, q0, c1, c2, c3⟩ := b3 x y hx hxy hy1
        have hk0 : k0 ≤ k := by
          by_contra hlt
          have := h4 k0 q0 (by omega) c1 c2 y c3
          rw [hy1] at this
          cases this
        have c4 := h9 k0 q0 c2
        by_cases e : k0 = k
        · subst e
          rw [if_pos rfl] at c4
          rw [h5] at c2
          cases c2
          have : y ∈ rest := by
            rw [e1] at c3
            rcases List.mem_append.1 c3 with c3 | c3
            · have := e2 y c3
              rw [hy1] at this
              cases this
            · rcases List.mem_cons.1 c3 with rfl | c3
              · exact absurd hm hy2
              · exact c3
          obtain ⟨l, c5, _⟩ := j3 _ _ c4
          exact ⟨_, _, Nat.le_refl _, c5, List.mem_append_left _ this⟩
        · rw [if_neg e, if_neg (by omega)] at c4
          obtain ⟨l, c5, _⟩ := j3 _ _ c4
          exact ⟨_, _, hk0, c5, List.mem_append_left _ c3⟩
    · exact Or.inl ⟨seed, h.flags seed hfree, by rw [ha, if_pos hm]⟩
    · intro k0 q0 y hq0 hy
      have : k0 < p1.queues.length := by rw [← j2]; exact (List.getElem?_eq_some_iff.1 hq0).1
      obtain ⟨q1', hq1⟩ : ∃ q1', p1.queues[k0]? = some q1' := ⟨_, List.getElem?_eq_getElem this⟩
      obtain ⟨l, c1, c2⟩ := j3 k0 q1' hq1
      rw [hq0] at c1
      cases c1
      rcases List.mem_append.1 hy with hy | hy
      · obtain ⟨r, hr⟩ : ∃ r, p.queues[k0]? = some r := ⟨_, List.getElem?_eq_getElem (by omega)⟩
        have c3 := h9 k0 r hr
        rw [hq1] at c3
        have hyr : y ∈ r := by
          by_cases e : k0 = k
          · subst e
            rw [if_pos rfl] at c3
            cases c3
            rw [h5] at hr
            cases hr
            rw [e1]
            exact List.mem_append_right _ (List.mem_cons_of_mem _ hy)
          · rw [if_neg e] at c3
            split at c3
            · cases c3; cases hy
            · cases c3; exact hy
        exact (h.source k0 r y hr hyr).imp_right (fun ⟨x, hx, hxy⟩ => ⟨x, fwd x hx, hxy⟩)
      · obtain ⟨u, hu, hyu⟩ := c2 y hy
        obtain ⟨_, _, x, hx, hxy⟩ := (q1 y).1 ⟨u, hu, hyu⟩
        exact Or.inr ⟨x, by rw [ha, if_pos hx], hxy⟩
    · exact h.source k q seed h5 (by rw [e1]; simp)

theorem GrownCell.seed_in {E : IsoEnv W F} {G : NMap Nat → Nat → List Nat → Prop} {agg : List Bool} {seed order : Nat} {s : NSet}
    (h : GrownCell E G agg seed order s) (h1 : 1 ≤ E.minCard) : seed ∈ s := by
  obtain ⟨d, _, _, _, h4, h5⟩ := h
  by_cases hc : d.size + 1 < E.goalCard
  · exact (h4 hc seed).2 (Or.inl rfl)
  · obtain ⟨xs, κ, m, _, a2, _, _, _, a6, a7⟩ := h5 (by omega)
    have hm : 1 ≤ m := Nat.le_trans h1 a6.1
    rw [a7, NSet.mem_ofList]
    cases xs with
    | nil => cases a2
    | cons x xs =>
      cases a2
      obtain ⟨m, rfl⟩ := Nat.exists_eq_add_of_le' hm
      simp

/-- at every turn with neighbourhood priority on a connected mesh, the seed is a cell of the
initialisation or next to a cell taken before -/
theorem IsoTrace.front {E : IsoEnv W F} {G : NMap Nat → Nat → List Nat → Prop} {I : List Nat} {n : Nat} {agg0 : List Bool} {p0 : Pool}
    (h0 : FrontInv E.g I n agg0 p0) (hk : E.pool.kind = .neighbourhood) (hB : ∀ x < n, ∃ b, E.pool.nBnd[x]? = some b)
    (hg : ValidCRS n E.g.rowPtr E.g.colInd) (hc : ConnectedMesh n E.g.rowPtr E.g.colInd) (h1 : 1 ≤ E.minCard)
    {cs : List (Nat × NSet)} {agg : List Bool} {p : Pool} (h : IsoTrace E G agg0 p0 cs agg p) :
    FrontInv E.g I n agg p ∧ ∀ (k : Nat) (e : Nat × NSet), cs[k]? = some e → e.1 ∈ e.2 ∧ e.1 < n ∧ agg0[e.1]? = some false ∧
      (∀ (j : Nat) (e' : Nat × NSet), j < k → cs[j]? = some e' → e.1 ∉ e'.2) ∧
      (e.1 ∈ I ∨ ∃ x : Nat, Adj E.g.rowPtr E.g.colInd x e.1 ∧
        (agg0[x]? = some true ∨ ∃ (j : Nat) (e' : Nat × NSet), j < k ∧ cs[j]? = some e' ∧ x ∈ e'.2)) := by
  induction h with
  | start => exact ⟨h0, by simp⟩
  | @turn cs agg agg' p p1 p2 seed order s ht hs hgr hq ha ih =>
    have hm := hgr.seed_in h1
    obtain ⟨i1, i2⟩ := ih
    obtain ⟨s1, s2⟩ := i1.step hk hB hg hc hs hm hq ha
    refine ⟨s1, ?_⟩
    intro k e he
    have lift : ∀ (j : Nat) (e' : Nat × NSet), j < cs.length → ((cs ++ [(seed, s)])[j]? = some e' ↔ cs[j]? = some e') := by
      intro j e' hj
      rw [List.getElem?_append_left hj]
    by_cases hkl : k < cs.length
    · rw [lift k e hkl] at he
      obtain ⟨a1, a2, a3, a4, a5⟩ := i2 k e he
      refine ⟨a1, a2, a3, fun j e' hj hj' => a4 j e' hj ((lift j e' (by omega)).1 hj'), a5.imp_right ?_⟩
      rintro ⟨x, hx, b⟩
      refine ⟨x, hx, b.imp_right ?_⟩
      rintro ⟨j, e', hj, hj', hx'⟩
      exact ⟨j, e', hj, (lift j e' (by omega)).2 hj', hx'⟩
    · have hke : k = cs.length := by
        have := (List.getElem?_eq_some_iff.1 he).1
        simp at this
        omega
      subst hke
      have hes : e = (seed, s) := by simpa using he.symm
      subst hes
      have hfree := hs.free
      have hno : ¬ ∃ e ∈ cs, seed ∈ e.2 := by
        intro hex
        have := (ht.taken seed).1 hex
        rw [hfree] at this
        cases this
      refine ⟨hm, i1.flags seed hfree, ?_, ?_, s2.imp_right ?_⟩
      · rw [← (ht.taken seed).2 hno]; exact hfree
      · intro j e' hj hj' hin
        exact hno ⟨e', List.mem_of_getElem? ((lift j e' hj).1 hj'), hin⟩
      · rintro ⟨x, hx, hxs⟩
        refine ⟨x, hxs, ?_⟩
        by_cases hex : ∃ e ∈ cs, x ∈ e.2
        · obtain ⟨e', he', hxe⟩ := hex
          obtain ⟨j, hj⟩ := List.mem_iff_getElem?.1 he'
          have hjl := (List.getElem?_eq_some_iff.1 hj).1
          exact Or.inr ⟨j, e', hjl, (lift j e' hjl).2 hj, hxe⟩
        · rw [(ht.taken x).2 hex] at hx
          exact Or.inl hx

/-- the new pool -/
theorem FrontInv.started {E : IsoEnv W F} {n : Nat} (hB : E.pool.nBnd.length = n) (h3 : ∀ b ∈ E.pool.nBnd, b ≤ 3) {p0 : Pool}
    (h : PoolStarted E.pool p0) : ∃ I, FrontInv E.g I n (List.replicate n false) p0 ∧
      (∀ x ∈ I, ∃ b, E.pool.nBnd[x]? = some b ∧ ∀ b' ∈ E.pool.nBnd, b' ≤ b) ∧ (E.pool.onePoint = true → ∃ x, I = [x]) := by
  obtain ⟨t, l, h1, h2, h4, h5, h6⟩ := h.start
  have ht : t ≤ 3 := h3 t h2
  rw [hB] at h6
  have hne : ∃ x l', l = x :: l' := by
    obtain ⟨i, hi⟩ := List.mem_iff_getElem?.1 h2
    have hin : i < n := by rw [← hB]; exact (List.getElem?_eq_some_iff.1 hi).1
    have : i ∈ l := (h6.2 i).2 ⟨hi, by simp [hin]⟩
    cases l with
    | nil => cases this
    | cons x l => exact ⟨x, l, rfl⟩
  obtain ⟨x0, l', hl⟩ := hne
  have hq : p0.queues[t]? = some (if E.pool.onePoint then l.take 1 else l) := by
    rw [h5, List.getElem?_set_self (by simp; omega)]
  have hsub : ∀ x ∈ (if E.pool.onePoint then l.take 1 else l), x ∈ l := by
    intro x hx
    split at hx
    · exact List.mem_of_mem_take hx
    · exact hx
  have hx0 : x0 ∈ (if E.pool.onePoint then l.take 1 else l) := by rw [hl]; split <;> simp
  refine ⟨if E.pool.onePoint then l.take 1 else l, ⟨?_, by simp, ⟨t, h1, by rw [h5]; simp; omega, ?_, Or.inr ?_⟩, ?_⟩, ?_, ?_⟩
  · intro x hx
    have := (List.getElem?_eq_some_iff.1 hx).1
    simpa using this
  · intro x y hx
    rw [List.getElem?_replicate] at hx
    split at hx <;> cases hx
  · intro hn
    have h7 := hn t _ (Nat.zero_le _) (Nat.le_refl _) hq x0 hx0
    rw [((h6.2 x0).1 (hsub x0 hx0)).2] at h7
    cases h7
  · intro k q y hkq hy
    left
    by_cases e : k = t
    · subst e
      rw [hq] at hkq
      cases hkq
      exact hy
    · rw [h5, List.getElem?_set_ne (by omega)] at hkq
      have : q = [] := by
        have := List.mem_of_getElem? hkq
        simpa using this
      rw [this] at hy
      cases hy
  · intro x hx
    exact ⟨t, ((h6.2 x).1 (hsub x hx)).1, h4⟩
  · intro ho
    rw [ho, hl]
    exact ⟨x0, rfl⟩

/-- the pool after the lines, if they have free neighbours -/
theorem FrontInv.near {E : IsoEnv W F} {n : Nat} (hB : E.pool.nBnd.length = n) (h3 : ∀ b ∈ E.pool.nBnd, b ≤ 3) {p0 : Pool}
    {taken : List Nat} (hlt : ∀ x ∈ taken, x < n)
    (hk : E.pool.kind = .neighbourhood) {agg0 : List Bool} (ha : agg0 = (List.range n).map (fun i => decide (i ∈ taken))) {x t : Nat}
    (hx : ((taken.flatMap (rowOf E.g.rowPtr E.g.colInd)).filter (fun x => decide (agg0[x]? = some false))).head? = some x)
    (ht : E.pool.nBnd[x]? = some t) (hp : p0.top = some t)
    (hq : p0.queues = (List.range 4).map (waitOn E.pool t
      ((taken.flatMap (rowOf E.g.rowPtr E.g.colInd)).filter (fun x => decide (agg0[x]? = some false))))) :
    FrontInv E.g [] n agg0 p0 := by
  have hl : agg0.length = n := by rw [ha]; simp
  have ht3 : t ≤ 3 := h3 t (List.mem_of_getElem? ht)
  have hget : ∀ i b, agg0[i]? = some b ↔ i < n ∧ b = decide (i ∈ taken) := by
    intro i b
    rw [ha, List.getElem?_map]
    by_cases hi : i < n
    · rw [List.getElem?_range hi]
      simp [hi, eq_comm]
    · rw [List.getElem?_eq_none (by simpa using hi)]
      simp [hi]
  refine ⟨fun x hx => ((hget x _).1 hx).1, by omega, ⟨t, hp, by rw [hq]; simp; omega, ?_, Or.inl ?_⟩, ?_⟩
  · intro u y hu huy hy
    have hut : u ∈ taken := by simpa using ((hget u _).1 hu).2
    obtain ⟨b, hb⟩ : ∃ b, E.pool.nBnd[y]? = some b :=
      ⟨_, List.getElem?_eq_getElem (by rw [hB]; exact ((hget y _).1 hy).1)⟩
    refine ⟨min b t, _, Nat.min_le_right _ _, by rw [hq, List.getElem?_map, List.getElem?_range (by omega)]; rfl, ?_⟩
    unfold waitOn
    rw [List.mem_filter, List.mem_filter, List.mem_flatMap]
    exact ⟨⟨⟨u, hut, adj_iff_rowOf.1 huy⟩, by simp [hy]⟩, by simp [hb, hk, seedLevel]⟩
  · obtain ⟨u, hu, _⟩ := List.mem_flatMap.1 (List.mem_filter.1 (List.mem_of_mem_head? hx)).1
    exact ⟨u, hlt u hu, (hget u _).2 ⟨hlt u hu, by simp [hu]⟩⟩
  · intro k q y hkq hy
    rw [hq, List.getElem?_map] at hkq
    have hk4 : k < 4 := by
      by_contra hge
      rw [List.getElem?_eq_none (by simpa using hge)] at hkq
      cases hkq
    rw [List.getElem?_range hk4] at hkq
    cases hkq
    unfold waitOn at hy
    rw [List.mem_filter, List.mem_filter, List.mem_flatMap] at hy
    obtain ⟨⟨⟨u, hu, huy⟩, _⟩, _⟩ := hy
    exact Or.inr ⟨u, (hget u _).2 ⟨hlt u hu, by simp [hu]⟩, adj_iff_rowOf.2 huy⟩

/-! ### Single cells -/

/-- a coarse cell with one cell is made only if that cell has no free neighbour -/
theorem GrownCell.alone {E : IsoEnv W F} {G : NMap Nat → Nat → List Nat → Prop} {agg : List Bool} {seed order : Nat} {s : NSet}
    (h : GrownCell E G agg seed order s) (hm : 1 < E.minCard)
    (h1 : ∀ x ∈ s, x = seed) {y : Nat} (hy : Adj E.g.rowPtr E.g.colInd seed y) (hf : agg[y]? = some false) : y = seed := by
  by_contra hne
  obtain ⟨d, d1, d2, d3, d4, d5⟩ := h
  have hw : Walk (FreeAdj E.g.rowPtr E.g.colInd agg) 1 seed y := Walk.single ⟨hy, hf⟩
  have hyd : y ∈ d.keySet := by
    rcases d2 with d2 | ⟨d2, _⟩
    · exact (d2 y ⟨1, seed, rfl, hw⟩).resolve_left hne
    · refine NMap.mem_keySet.2 (NMap.mem_keys.2 ⟨1, (d1 y 1).2 ⟨⟨⟨seed, rfl, hw⟩, ?_⟩, by omega, ?_⟩⟩)
      · rintro k w rfl hk
        cases hk with
        | nil => exact absurd rfl hne
        | step => omega
      · have : 2 ≤ (if E.g.dim = 2 then 2 else 3) := by split <;> omega
        omega
  by_cases hc : d.size + 1 < E.goalCard
  · exact hne (h1 y ((d4 hc y).2 (Or.inr hyd)))
  · obtain ⟨xs, κ, m, _, a2, a3, a4, a5, ⟨b1, b2, b3⟩, a7⟩ := d5 (by omega)
    obtain ⟨m, rfl⟩ := Nat.exists_eq_add_of_le' (Nat.le_trans hm b1)
    match xs, a2, a4, a7, b2 with
    | [x], _, _, _, b2 => simp at b2
    | x :: z :: l, a2, a4, a7, _ =>
      cases a2
      have := h1 z (by rw [a7, NSet.mem_ofList]; simp)
      subst this
      simp at a4

/-- cell `x` is alone in its coarse cell, not made from a line -/
def Single (f : List Nat) (m x : Nat) : Prop := ∃ k, f[x]? = some k ∧ m ≤ k ∧ f.count k = 1

/-- no coarse cell touches a later single cell -/
def SinglesLast (rp ci f : List Nat) (m : Nat) : Prop :=
  ∀ x k : Nat, Single f m x → f[x]? = some k → ∀ y, Adj rp ci x y → y = x ∨ ∃ l, f[y]? = some l ∧ l < k

/-- correction moves only single cells, to cells that are not single -/
theorem Merges.moves {rp ci : List Nat} {m : Nat} {f0 : List Nat} (hs : SymmetricCRS rp ci) (hl : SinglesLast rp ci f0 m)
    {ks f f' : List Nat} (h : Merges rp ci m ks f f') (hks : ∀ k ∈ ks, m ≤ k ∧ f0.count k = 1)
    (hf : ∀ i : Nat, (¬ Single f0 m i → f[i]? = f0[i]?) ∧
      (Single f0 m i → f[i]? = f0[i]? ∨ ∃ y : Nat, ¬ Single f0 m y ∧ f[i]? = f0[y]?)) :
    ∀ i : Nat, (¬ Single f0 m i → f'[i]? = f0[i]?) ∧
      (Single f0 m i → f'[i]? = f0[i]? ∨ ∃ y : Nat, ¬ Single f0 m y ∧ f'[i]? = f0[y]?) := by
  induction h with
  | done => exact hf
  | large _ _ ih => exact ih (fun k hk => hks k (List.mem_cons_of_mem _ hk)) hf
  | alone _ _ _ _ ih => exact ih (fun k hk => hks k (List.mem_cons_of_mem _ hk)) hf
  | @merged k ks x r f f' hc hx hr _ ih =>
    refine ih (fun k hk => hks k (List.mem_cons_of_mem _ hk)) ?_
    obtain ⟨hk1, hk2⟩ := hks k List.mem_cons_self
    have hSx : Single f0 m x := by
      by_contra hno
      have := (hf x).1 hno
      rw [hx] at this
      exact hno ⟨k, this.symm, hk1, hk2⟩
    obtain ⟨⟨h1, h2, y, h3, h4⟩, _⟩ := hr
    have hSy : ¬ Single f0 m y := by
      intro hSy
      obtain ⟨kx, ex, _⟩ := id hSx
      obtain ⟨ky, ey, _⟩ := id hSy
      have hne : y ≠ x := by rintro rfl; exact h1 h4
      rcases hl x kx hSx ex y h3 with e | ⟨l, e, hlt⟩
      · exact hne e
      · rcases hl y ky hSy ey x (hs _ _ h3) with e' | ⟨l', e', hlt'⟩
        · exact hne e'.symm
        · rw [ey] at e; cases e
          rw [ex] at e'; cases e'
          omega
    intro i
    by_cases hi : x = i
    · subst hi
      refine ⟨fun h => absurd hSx h, fun _ => Or.inr ⟨y, hSy, ?_⟩⟩
      rw [List.getElem?_set_self (List.getElem?_eq_some_iff.1 hx).1, ← (hf y).1 hSy, h4]
    · rw [List.getElem?_set_ne hi]
      exact hf i

theorem rank_lt {f : List Nat} {k l : Nat} (hl : l ∈ f) (h : l < k) :
    ((List.range l).filter (fun j => decide (j ∈ f))).length < ((List.range k).filter (fun j => decide (j ∈ f))).length := by
  have h1 : ((List.range (l + 1)).filter (fun j => decide (j ∈ f))).length = ((List.range l).filter (fun j => decide (j ∈ f))).length + 1 := by
    rw [List.range_succ, List.filter_append]
    simp [hl]
  have h2 : ((List.range (l + 1)).filter (fun j => decide (j ∈ f))).length ≤ ((List.range k).filter (fun j => decide (j ∈ f))).length :=
    ((List.range_sublist.2 h).filter _).length_le
  omega

/-- a cell next to an earlier coarse cell remains so after correction -/
theorem CorrectionOf.front {rp ci : List Nat} {m : Nat} {f0 f : List Nat} (h : CorrectionOf rp ci m f0 f) (hs : SymmetricCRS rp ci)
    (hl : SinglesLast rp ci f0 m) {Q : Nat → Nat → Prop} (hQ : ∀ i k k', Q i k → k' ≤ k → Q i k')
    (h0 : ∀ k ∈ f0, m ≤ k → ∃ i : Nat, f0[i]? = some k ∧ ((∃ j l : Nat, Adj rp ci j i ∧ f0[j]? = some l ∧ l < k) ∨ Q i k)) :
    ∀ k ∈ f, m ≤ k → ∃ i : Nat, f[i]? = some k ∧ ((∃ j l : Nat, Adj rp ci j i ∧ f[j]? = some l ∧ l < k) ∨ Q i k) := by
  obtain ⟨N, f1, _, h2, rfl⟩ := h
  have mv := h2.moves hs hl (by
    intro k hk
    have := (List.mem_filter.1 hk).2
    simpa using this) (fun i => ⟨fun _ => rfl, fun _ => Or.inl rfl⟩)
  intro k' hk' hmk'
  obtain ⟨k, hk, rfl⟩ := List.mem_map.1 hk'
  have hle : ((List.range k).filter (fun j => decide (j ∈ f1))).length ≤ k := by
    have := List.length_filter_le (fun j => decide (j ∈ f1)) (List.range k)
    rwa [List.length_range] at this
  have hmk : m ≤ k := Nat.le_trans hmk' hle
  obtain ⟨z, hz⟩ := List.mem_iff_getElem?.1 hk
  have hk0 : k ∈ f0 := by
    by_cases hS : Single f0 m z
    · rcases (mv z).2 hS with e | ⟨y, _, e⟩
      · exact List.mem_of_getElem? (e ▸ hz)
      · exact List.mem_of_getElem? (e ▸ hz)
    · exact List.mem_of_getElem? ((mv z).1 hS ▸ hz)
  obtain ⟨i, hi, hor⟩ := h0 k hk0 hmk
  have hi1 : f1[i]? = some k := by
    by_cases hS : Single f0 m i
    · by_cases hSz : Single f0 m z
      · rcases (mv z).2 hSz with e | ⟨y, hy, e⟩
        · rw [hz] at e
          obtain ⟨kk, e1, _, e3⟩ := hS
          rw [hi] at e1
          cases e1
          obtain rfl := count_one_pos e3 hi e.symm
          exact hz
        · rw [hz] at e
          obtain ⟨kk, e1, _, e3⟩ := id hS
          rw [hi] at e1
          cases e1
          obtain rfl := count_one_pos e3 hi e.symm
          exact absurd hS hy
      · have e := (mv z).1 hSz
        rw [hz] at e
        obtain ⟨kk, e1, _, e3⟩ := id hS
        rw [hi] at e1
        cases e1
        obtain rfl := count_one_pos e3 hi e.symm
        exact absurd hS hSz
    · rw [(mv i).1 hS]; exact hi
  refine ⟨i, by unfold renumbered; rw [List.getElem?_map, hi1]; rfl, ?_⟩
  rcases hor with ⟨j, l, e1, e2, e3⟩ | hq
  · left
    have hSj : ¬ Single f0 m j := by
      intro hS
      rcases hl j l hS e2 i e1 with e | ⟨l', e, hlt⟩
      · subst e; rw [hi] at e2; cases e2; omega
      · rw [hi] at e; cases e; omega
    have hj1 : f1[j]? = some l := by rw [(mv j).1 hSj]; exact e2
    exact ⟨j, _, e1, by unfold renumbered; rw [List.getElem?_map, hj1]; rfl, rank_lt (List.mem_of_getElem? hj1) e3⟩
  · exact Or.inr (hQ i k _ hq hle)

end CoMMA
