import Verif.Lemmas.GridPool
/-! # Runs on a grid: coarse cells are blocks -/

namespace CoMMA

variable {W : Type} [Num W]
variable {D : Nat} {ext : Nat → Nat} {n : Nat} {pos : Nat → Nat → Nat} {R : Nat → Nat → Prop}

theorem lt_of_agg {agg : List Bool} {x : Nat} {b : Bool} (h : agg[x]? = some b) (hl : agg.length = n) : x < n := by
  have := (List.getElem?_eq_some_iff.1 h).1
  omega

/-- the state after the block of `s` is taken -/
structure BlockMarked (D n : Nat) (pos : Nat → Nat → Nat) (s : Nat) (agg agg' : List Bool) : Prop where
  len : agg'.length = n
  new : ∀ x < n, SameBlock D (pos x) (pos s) → agg'[x]? = some true
  old : ∀ x, ¬ SameBlock D (pos x) (pos s) → agg'[x]? = agg[x]?

theorem BlockMarked.free {s : Nat} {agg agg' : List Bool} (h : BlockMarked D n pos s agg agg') {x : Nat} (hx : agg'[x]? = some false) :
    agg[x]? = some false ∧ ¬ SameBlock D (pos x) (pos s) := by
  have hn : ¬ SameBlock D (pos x) (pos s) := by
    intro hs
    rw [h.new x (lt_of_agg hx h.len) hs] at hx
    cases hx
  exact ⟨by rw [← h.old x hn]; exact hx, hn⟩

theorem BlockMarked.mono {s : Nat} {agg agg' : List Bool} (h : BlockMarked D n pos s agg agg') (hl : agg.length = n) {x : Nat}
    (hx : agg[x]? = some true) : agg'[x]? = some true := by
  by_cases hs : SameBlock D (pos x) (pos s)
  · exact h.new x (lt_of_agg hx hl) hs
  · rw [h.old x hs]; exact hx

theorem BlockMarked.blk {s : Nat} {agg agg' : List Bool} (h : BlockMarked D n pos s agg agg') (hl : agg.length = n)
    (hb : BlockSet D n pos (fun x => agg[x]? = some true)) : BlockSet D n pos (fun x => agg'[x]? = some true) := by
  intro x hx y hy hxy hc
  by_cases hs : SameBlock D (pos x) (pos s)
  · exact h.new y hy (hxy.symm.trans hs)
  · simp only [h.old x hs] at hc
    exact h.mono hl (hb x hx y hy hxy hc)

omit [Num W] in
/-- a seed is taken: it is a corner, and the invariant holds once its block is marked -/
theorem pop_core {c : PoolCfg W} (hg : GridPool D ext n pos R c) {agg : List Bool} {p p1 : Pool} {s k : Nat} {q rest : List Nat}
    (h : PoolGrid D ext n pos R c agg (fun y => agg[y]? = some true) p)
    (hs : agg[s]? = some false) (hq : p.queues[k]? = some q)
    (hab : ∀ (k' : Nat) q' x, k < k' → p.queues[k']? = some q' → x ∈ q' → agg[x]? = some true)
    (hc : (∃ pre, q = pre ++ s :: rest ∧ ∀ x ∈ pre, agg[x]? = some true) ∨
      ((∀ x ∈ q, agg[x]? = some true) ∧ ∀ x ∈ s :: rest, c.nBnd[x]? = some k ∧ ∀ z, R x z → SameBlock D (pos x) (pos z)))
    (hle : c.kind = .boundary → ∀ x, agg[x]? = some false → sidesOut D ext (pos x) ≤ k)
    (htop : c.kind = .neighbourhood → ∃ t, p.top = some t ∧ k ≤ t)
    (ht1 : p1.top = some k) (hl1 : p1.queues.length = p.queues.length)
    (hq1 : ∀ (j : Nat) r, p.queues[j]? = some r → ∃ r', p1.queues[j]? = some r' ∧
      ((j = k ∧ r' = rest) ∨ (j ≠ k ∧ (r' = r ∨ (r' = [] ∧ ∀ x ∈ r, agg[x]? = some true))))) :
    Corner D pos R (fun x => agg[x]? = some true) s ∧
      ∀ agg', BlockMarked D n pos s agg agg' → PoolGrid D ext n pos R c agg' (fun y => agg[y]? = some true) p1 := by
  have hq1' : ∀ (j : Nat) r', p1.queues[j]? = some r' → ∃ r, p.queues[j]? = some r ∧
      ((j = k ∧ r' = rest) ∨ (j ≠ k ∧ (r' = r ∨ (r' = [] ∧ ∀ x ∈ r, agg[x]? = some true)))) := by
    intro j r' hr
    have : j < p.queues.length := by rw [← hl1]; exact (List.getElem?_eq_some_iff.1 hr).1
    obtain ⟨r'', e1, e2⟩ := hq1 j _ (List.getElem?_eq_getElem this)
    rw [hr] at e1
    cases e1
    exact ⟨_, List.getElem?_eq_getElem this, e2⟩
  have hblk : ∀ {w z : Nat}, agg[w]? = some true → z < n → SameBlock D (pos w) (pos z) → agg[z]? = some true :=
    fun hw hz hwz => h.blk _ (lt_of_agg hw h.len) _ hz hwz hw
  refine ⟨?_, ?_⟩
  · intro z hz hzb
    have hzn : z < n := ((hg.grid.grid.adj s z).1 hz).2.1
    have hsn : s < n := lt_of_agg hs h.len
    rcases hc with ⟨pre, he, hpre⟩ | ⟨_, hr⟩
    · have hgood := h.good k q pre.length s hq (by rw [he]; simp) hs
      have hear : ∀ z', z' < n → Earlier D pos p k pre.length z' → agg[z']? = some true := by
        rintro z' hz' (⟨k', q', w, h1, h2, h3, h4⟩ | ⟨q', j, w, h1, h2, h3, h4⟩)
        · exact hblk (hab k' q' w h1 h2 h3) hz' h4
        · rw [hq] at h1; cases h1
          rw [he, List.getElem?_append_left h2] at h3
          exact hblk (hpre w (List.mem_of_getElem? h3)) hz' h4
      rcases hgood with hgood | hgood
      · rcases hgood z hz hzb with h1 | h1
        · exact h1
        · exact hear z hzn h1
      · have := hear s hsn hgood
        rw [hs] at this; cases this
    · exact absurd ((hr s List.mem_cons_self).2 z hz) hzb
  · intro agg' hm
    -- entries of the old pool are still there, unless their cell is taken
    have hent : ∀ (j : Nat) r w, p.queues[j]? = some r → w ∈ r → agg'[w]? = some true ∨
        ∃ r', p1.queues[j]? = some r' ∧ w ∈ r' := by
      intro j r w hr hw
      obtain ⟨r', e1, ⟨rfl, rfl⟩ | ⟨hjk, rfl | ⟨rfl, e2⟩⟩⟩ := hq1 j r hr
      · rw [hq] at hr; cases hr
        rcases hc with ⟨pre, he, hpre⟩ | ⟨hcov, _⟩
        · rw [he, List.mem_append, List.mem_cons] at hw
          rcases hw with hw | rfl | hw
          · exact Or.inl (hm.mono h.len (hpre w hw))
          · exact Or.inl (hm.new w (lt_of_agg hs h.len) SameBlock.rfl')
          · exact Or.inr ⟨_, e1, hw⟩
        · exact Or.inl (hm.mono h.len (hcov w hw))
      · exact Or.inr ⟨_, e1, hw⟩
      · exact Or.inl (hm.mono h.len (e2 w hw))
    have hb' := hm.blk h.len h.blk
    have hblk' : ∀ {w z : Nat}, agg'[w]? = some true → z < n → SameBlock D (pos w) (pos z) → agg'[z]? = some true :=
      fun hw hz hwz => hb' _ (lt_of_agg hw hm.len) _ hz hwz hw
    refine ⟨hm.len, by rw [hl1]; exact h.size, hb', ?_, ?_, ?_, ?_, ?_, ⟨k, ht1⟩⟩
    · intro x y hx hy hR
      obtain ⟨hx0, hxs⟩ := hm.free hx
      obtain ⟨k0, q0, h1, h2, h3⟩ := h.wait x y hx0 hy hR
      rcases hent k0 q0 x h1 h2 with h4 | ⟨r', h4, h5⟩
      · rw [hx] at h4; cases h4
      · refine ⟨k0, r', h4, h5, Nat.le_trans ?_ h3⟩
        rw [ht1]
        cases hk : c.kind with
        | boundary => simp [seedLevel]
        | neighbourhood =>
          obtain ⟨t, ht, hkt⟩ := htop hk
          rw [ht]
          simp only [seedLevel]
          omega
    · intro j r' i x hr hi hx
      obtain ⟨hx0, hxs⟩ := hm.free hx
      have hxn : x < n := lt_of_agg hx hm.len
      obtain ⟨r, hjr, hcase⟩ := hq1' j r' hr
      -- the old place of the entry and what was before it
      have hold : ∀ i0, (∀ z, z < n → Earlier D pos p j i0 z → agg'[z]? = some true ∨ Earlier D pos p1 j i z) →
          r[i0]? = some x →
          (∀ z, R x z → ¬ SameBlock D (pos x) (pos z) → agg'[z]? = some true ∨ Earlier D pos p1 j i z) ∨
            Earlier D pos p1 j i x := by
        intro i0 htr hxi
        rcases h.good j r i0 x hjr hxi hx0 with h1 | h1
        · left
          intro z hz hzb
          have hzn : z < n := ((hg.grid.grid.adj x z).1 hz).2.1
          rcases h1 z hz hzb with h2 | h2
          · exact Or.inl (hm.mono h.len h2)
          · exact htr z hzn h2
        · rcases htr x hxn h1 with h2 | h2
          · rw [hx] at h2; cases h2
          · exact Or.inr h2
      have hhigh : ∀ z k' q' w, z < n → j < k' → p.queues[k']? = some q' → w ∈ q' → SameBlock D (pos w) (pos z) →
          agg'[z]? = some true ∨ Earlier D pos p1 j i z := by
        intro z k' q' w hz h1 h2 h3 h4
        rcases hent k' q' w h2 h3 with h5 | ⟨r2, h5, h6⟩
        · exact Or.inl (hblk' h5 hz h4)
        · exact Or.inr (Or.inl ⟨k', r2, w, h1, h5, h6, h4⟩)
      rcases hcase with ⟨rfl, rfl⟩ | ⟨hjk, rfl | ⟨rfl, _⟩⟩
      · rw [hq] at hjr; cases hjr
        rcases hc with ⟨pre, he, hpre⟩ | ⟨_, hrest⟩
        · refine hold (pre.length + 1 + i) ?_ (by
            rw [he, List.getElem?_append_right (by omega), show pre.length + 1 + i - pre.length = i + 1 by omega,
              List.getElem?_cons_succ]
            exact hi)
          rintro z hz (⟨k', q', w, h1, h2, h3, h4⟩ | ⟨q', j', w, h1, h2, h3, h4⟩)
          · exact hhigh z k' q' w hz h1 h2 h3 h4
          · rw [hq] at h1; cases h1
            rw [he] at h3
            by_cases hj1 : j' < pre.length
            · rw [List.getElem?_append_left hj1] at h3
              exact Or.inl (hblk' (hm.mono h.len (hpre w (List.mem_of_getElem? h3))) hz h4)
            · rw [List.getElem?_append_right (by omega)] at h3
              by_cases hj2 : j' = pre.length
              · rw [hj2, Nat.sub_self, List.getElem?_cons_zero] at h3
                cases h3
                exact Or.inl (hm.new z hz h4.symm)
              · rw [show j' - pre.length = (j' - pre.length - 1) + 1 by omega, List.getElem?_cons_succ] at h3
                exact Or.inr (Or.inr ⟨_, j' - pre.length - 1, w, hr, by omega, h3, h4⟩)
        · left
          intro z hz hzb
          exact absurd ((hrest x (List.mem_cons_of_mem _ (List.mem_of_getElem? hi))).2 z hz) hzb
      · refine hold i ?_ hi
        rintro z hz (⟨k', q', w, h1, h2, h3, h4⟩ | ⟨q', j', w, h1, h2, h3, h4⟩)
        · exact hhigh z k' q' w hz h1 h2 h3 h4
        · rw [hjr] at h1; cases h1
          exact Or.inr (Or.inr ⟨_, j', w, hr, h2, h3, h4⟩)
      · simp at hi
    · intro t j r' x htt htj hr hx
      rw [ht1] at htt; cases htt
      obtain ⟨r, hjr, ⟨rfl, rfl⟩ | ⟨hjk, rfl | ⟨rfl, _⟩⟩⟩ := hq1' j r' hr
      · omega
      · exact hm.mono h.len (hab j _ x htj hjr hx)
      · cases hx
    · intro hk j r' x hr hx
      obtain ⟨r, hjr, ⟨rfl, rfl⟩ | ⟨hjk, rfl | ⟨rfl, _⟩⟩⟩ := hq1' j r' hr
      · rcases hc with ⟨pre, he, hpre⟩ | ⟨_, hrest⟩
        · exact h.lvl hk j q x hq (by rw [he]; simp [hx])
        · exact (hrest x (List.mem_cons_of_mem _ hx)).1
      · exact h.lvl hk j _ x hjr hx
      · cases hx
    · intro hk t x htt hx
      rw [ht1] at htt; cases htt
      exact hle hk x (hm.free hx).1

/-- the seed given by the pool -/
theorem pop {c : PoolCfg W} (hg : GridPool D ext n pos R c) {agg : List Bool} {p p1 : Pool} {s : Nat}
    (h : PoolGrid D ext n pos R c agg (fun y => agg[y]? = some true) p)
    (hst : (∃ y : Nat, agg[y]? = some true) ∨ ∃ (t : Nat) (q : List Nat) (x : Nat), p.top = some t ∧ p.queues[t]? = some q ∧ x ∈ q ∧ agg[x]? = some false)
    (hc : SeedChosen c agg p (some s) p1) :
    agg[s]? = some false ∧ Corner D pos R (fun x => agg[x]? = some true) s ∧
      ∀ agg', BlockMarked D n pos s agg agg' → PoolGrid D ext n pos R c agg' (fun y => agg[y]? = some true) p1 := by
  cases hc with
  | @waiting t k _ q rest _ ht hlo hkt hnone hq hff ht1 hl1 hq1 =>
    obtain ⟨pre, he, hpre, hs⟩ := hff
    refine ⟨hs, pop_core hg h hs hq ?_ (Or.inl ⟨pre, he, hpre⟩) ?_ (fun _ => ⟨t, ht, hkt⟩) ht1 hl1 ?_⟩
    · intro k' q' x hk' hq' hx
      by_cases hle : k' ≤ t
      · exact hnone k' q' (by omega) hle hq' x hx
      · exact h.above t k' q' x ht (by omega) hq' hx
    · intro hk x hx
      rw [hk] at hlo
      have : k = t := Nat.le_antisymm hkt hlo
      subst this
      exact h.freeLe hk _ x ht hx
    · intro j r hr
      refine ⟨_, hq1 j r hr, ?_⟩
      by_cases hjk : j = k
      · left; rw [if_pos hjk]; exact ⟨hjk, rfl⟩
      · right
        rw [if_neg hjk]
        refine ⟨hjk, ?_⟩
        by_cases hj : k < j ∧ j ≤ t
        · right; rw [if_pos hj]
          exact ⟨rfl, hnone j r (by omega) hj.2 hr⟩
        · left; rw [if_neg hj]
  | @otherLevel t cur _ q rest _ ht hnone hnext hq hff ht1 hl1 hq1 =>
    have hfree : ∀ x < n, ¬ (agg[x]? = some true) → agg[x]? = some false := by
      intro x hx hne
      have hxl : x < agg.length := by rw [h.len]; exact hx
      rw [List.getElem?_eq_getElem hxl] at hne ⊢
      cases hb : agg[x] <;> simp_all
    obtain ⟨i, hib, hif⟩ : ∃ i : Nat, c.nBnd[i]? = some cur ∧ agg[i]? = some false := by
      rcases hnext with ⟨i, h1, h2, _⟩ | ⟨⟨i, h1, h2⟩, _⟩ <;> exact ⟨i, h1, h2⟩
    have hin : i < n := lt_of_agg hif h.len
    have hico : sidesOut D ext (pos i) = cur := by
      have := hg.bnd i hin
      rw [hib] at this; cases this; rfl
    cases hk : c.kind with
    | neighbourhood =>
      exfalso
      rw [hk] at hnone
      have hall : ∀ (k : Nat) q x, p.queues[k]? = some q → x ∈ q → agg[x]? = some true := by
        intro k q x hq hx
        by_cases hle : k ≤ t
        · exact hnone k q (Nat.zero_le _) hle hq x hx
        · exact h.above t k q x ht (by omega) hq hx
      rcases hst with ⟨y, hy⟩ | ⟨t', q', x, _, h2, h3, h4⟩
      · obtain ⟨u, v, hu, hv, h1, h2, h3⟩ := hg.grid.frontier (cov := fun x => agg[x]? = some true) _ i y hin
          (lt_of_agg hy h.len) (by simp [hif]) hy rfl
        obtain ⟨k, q, h4, h5, _⟩ := h.wait u v (hfree u hu h1) h2 h3
        exact h1 (hall k q u h4 h5)
      · have := hall t' q' x h2 h3
        rw [h4] at this; cases this
    | boundary =>
      rw [hk] at hnone hq1
      have hmax : ∀ x, agg[x]? = some false → sidesOut D ext (pos x) ≤ cur := by
        intro x hx
        rcases hnext with ⟨i', h1, h2, h3, _⟩ | ⟨_, _, h3⟩
        · exact Nat.le_trans (h.freeLe hk t x ht hx) h3
        · exact h3 x _ (hg.bnd x (lt_of_agg hx h.len)) hx
      have hab : ∀ (k' : Nat) q' x, cur < k' → p.queues[k']? = some q' → x ∈ q' → agg[x]? = some true := by
        intro k' q' x hk' hq' hx
        have hb := h.lvl hk k' q' x hq' hx
        have hxn : x < n := by rw [← hg.len]; exact (List.getElem?_eq_some_iff.1 hb).1
        by_contra hne
        have := hmax x (hfree x hxn hne)
        rw [hg.bnd x hxn] at hb
        cases hb
        omega
      have hq1c : ∀ (j : Nat) r, p.queues[j]? = some r → ∃ r', p1.queues[j]? = some r' ∧
          ((j = cur ∧ r' = rest) ∨ (j ≠ cur ∧ (r' = r ∨ (r' = [] ∧ ∀ x ∈ r, agg[x]? = some true)))) := by
        intro j r hr
        refine ⟨_, hq1 j r hr, ?_⟩
        by_cases hjk : j = cur
        · left; rw [if_pos hjk]; exact ⟨hjk, rfl⟩
        · right
          rw [if_neg hjk]
          refine ⟨hjk, ?_⟩
          by_cases hj : lowestLevel .boundary t ≤ j ∧ j ≤ t
          · right; rw [if_pos hj]
            exact ⟨rfl, hnone j r hj.1 hj.2 hr⟩
          · left; rw [if_neg hj]
      rcases hff with ⟨pre, he, hpre, hs⟩ | ⟨hcov, hfl⟩
      · exact ⟨hs, pop_core hg h hs hq hab (Or.inl ⟨pre, he, hpre⟩) (fun _ => hmax) (fun hk' => by rw [hk] at hk'; cases hk')
          ht1 hl1 hq1c⟩
      · have hcur : cur = D := by
          by_contra hne
          obtain ⟨u, v, hu, h1, h2, h3, h4⟩ := hg.grid.frontierAt (cov := fun x => agg[x]? = some true) hin (by simp [hif])
            (by rw [hico]; exact hne) (fun y hy hcy => by rw [hico]; exact hmax y (hfree y hy hcy))
          obtain ⟨k, q', h5, h6, h7⟩ := h.wait u v (hfree u hu h1) h2 h3
          have := h.lvl hk k q' u h5 h6
          rw [hg.bnd u hu, h4, hico] at this
          cases this
          rw [hq] at h5; cases h5
          exact h1 (hcov u h6)
        have hmem : ∀ x ∈ s :: rest, c.nBnd[x]? = some cur ∧ agg[x]? = some false := fun x hx => (hfl.2 x).1 hx
        have hs := (hmem s List.mem_cons_self).2
        refine ⟨hs, pop_core hg h hs hq hab (Or.inr ⟨hcov, fun x hx => ⟨(hmem x hx).1, ?_⟩⟩) (fun _ => hmax)
          (fun hk' => by rw [hk] at hk'; cases hk') ht1 hl1 hq1c⟩
        intro z hz
        have hxn := lt_of_agg (hmem x hx).2 h.len
        refine hg.grid.cornerCell hxn ?_ hz
        have := (hmem x hx).1
        rw [hg.bnd x hxn, hcur] at this
        exact Option.some.inj this

theorem WaitAt.mono {p : Pool} {l l' z : Nat} (h : WaitAt D pos p l z) (hl : l' ≤ l) : WaitAt D pos p l' z := by
  obtain ⟨k, q, w, h1, h2⟩ := h
  exact ⟨k, q, w, by omega, h2⟩

/-- one group of seeds joins the pool -/
theorem push_one {c : PoolCfg W} (hg : GridPool D ext n pos R c) {agg : List Bool} {Y : Nat → Prop} {p p1 : Pool} {t : NSet}
    (h : PoolGrid D ext n pos R c agg Y p) (hj : SeedsJoined c t p p1)
    (ht : ∀ x ∈ t, agg[x]? = some false ∧
      ((∀ z, R x z → ¬ SameBlock D (pos x) (pos z) → agg[z]? = some true ∨
        WaitAt D pos p (seedLevel c.kind p.top (sidesOut D ext (pos x))) z) ∨
        WaitAt D pos p (seedLevel c.kind p.top (sidesOut D ext (pos x))) x)) :
    PoolGrid D ext n pos R c agg Y p1 ∧
    (∀ b, seedLevel c.kind p1.top b = seedLevel c.kind p.top b) ∧
    (∀ (k : Nat) q, p.queues[k]? = some q → ∃ l, p1.queues[k]? = some (q ++ l)) ∧
    (∀ x ∈ t, ∃ k q, p1.queues[k]? = some q ∧ x ∈ q ∧ seedLevel c.kind p1.top (sidesOut D ext (pos x)) ≤ k) := by
  have hsl : ∀ b, seedLevel c.kind p1.top b = seedLevel c.kind p.top b := by
    intro b
    cases hk : c.kind with
    | boundary => rfl
    | neighbourhood => rw [hj.keep (Or.inl hk)]
  have hext : ∀ (k : Nat) q, p.queues[k]? = some q → ∃ l, p1.queues[k]? = some (q ++ l) := by
    intro k q hq
    obtain ⟨l, h1, _⟩ := hj.queues k q hq
    exact ⟨l, h1⟩
  obtain ⟨t0, ht0⟩ := h.topSome
  have htop : ∃ t1, p1.top = some t1 ∧ t0 ≤ t1 := by
    by_cases hem : ∃ s, s ∈ t
    · cases hk : c.kind with
      | boundary =>
        obtain ⟨t1, h1, h2, _⟩ := hj.raise hk hem
        exact ⟨t1, h1, h2 t0 ht0⟩
      | neighbourhood => exact ⟨t0, by rw [hj.keep (Or.inl hk), ht0], Nat.le_refl _⟩
    · exact ⟨t0, by rw [hj.keep (Or.inr (fun s hs => hem ⟨s, hs⟩)), ht0], Nat.le_refl _⟩
  obtain ⟨t1, ht1, ht01⟩ := htop
  have hnew : ∀ x ∈ t, x < n ∧ sidesOut D ext (pos x) < 4 := by
    intro x hx
    have hxn := lt_of_agg (ht x hx).1 h.len
    have := sidesOut_le (D := D) (ext := ext) (hg.grid.two_le (by omega)) (pos x)
    have := hg.dim
    exact ⟨hxn, by omega⟩
  -- entries of the new pool
  have hinv : ∀ (k : Nat) r, p1.queues[k]? = some r → ∃ q l, p.queues[k]? = some q ∧ r = q ++ l ∧
      ∀ s, s ∈ l ↔ s ∈ t ∧ ∃ b, c.nBnd[s]? = some b ∧ seedLevel c.kind p.top b = k := by
    intro k r hr
    have hk : k < p.queues.length := by rw [← hj.size]; exact (List.getElem?_eq_some_iff.1 hr).1
    obtain ⟨l, h1, h2, _⟩ := hj.queues k _ (List.getElem?_eq_getElem hk)
    rw [hr] at h1
    cases h1
    exact ⟨_, l, List.getElem?_eq_getElem hk, rfl, h2⟩
  have hmono : ∀ k i z, Earlier D pos p k i z → Earlier D pos p1 k i z := by
    rintro k i z (⟨k', q, w, h1, h2, h3, h4⟩ | ⟨q, j, w, h1, h2, h3, h4⟩)
    · obtain ⟨l, hl⟩ := hext k' q h2
      exact Or.inl ⟨k', _, w, h1, hl, List.mem_append_left _ h3, h4⟩
    · obtain ⟨l, hl⟩ := hext k q h1
      refine Or.inr ⟨_, j, w, hl, h2, ?_, h4⟩
      rw [List.getElem?_append_left (List.getElem?_eq_some_iff.1 h3).1]
      exact h3
  refine ⟨⟨h.len, by rw [hj.size]; exact h.size, h.blk, ?_, ?_, ?_, ?_, ?_, ⟨t1, ht1⟩⟩, hsl, hext, ?_⟩
  · intro x y hx hy hR
    obtain ⟨k, q, h1, h2, h3⟩ := h.wait x y hx hy hR
    obtain ⟨l, hl⟩ := hext k q h1
    exact ⟨k, _, hl, List.mem_append_left _ h2, by rw [hsl]; exact h3⟩
  · intro k r i x hr hi hx
    obtain ⟨q, l, hq, rfl, hl⟩ := hinv k r hr
    by_cases hiq : i < q.length
    · rw [List.getElem?_append_left hiq] at hi
      rcases h.good k q i x hq hi hx with h1 | h1
      · left
        intro z hz hzb
        rcases h1 z hz hzb with h2 | h2
        · exact Or.inl h2
        · exact Or.inr (hmono _ _ _ h2)
      · exact Or.inr (hmono _ _ _ h1)
    · rw [List.getElem?_append_right (by omega)] at hi
      obtain ⟨hxt, b, hb, hbk⟩ := (hl x).1 (List.mem_of_getElem? hi)
      rw [hg.bnd x (hnew x hxt).1] at hb
      cases hb
      have htr : ∀ z, WaitAt D pos p (seedLevel c.kind p.top (sidesOut D ext (pos x))) z → Earlier D pos p1 k i z := by
        rintro z ⟨k', q', w, h1, h2, h3, h4⟩
        rw [hbk] at h1
        apply hmono
        by_cases hkk : k' = k
        · subst hkk
          rw [hq] at h2; cases h2
          obtain ⟨j, hj1, hj2⟩ := List.mem_iff_getElem.1 h3
          exact Or.inr ⟨q, j, w, hq, by omega, by rw [List.getElem?_eq_getElem hj1, hj2], h4⟩
        · exact Or.inl ⟨k', q', w, by omega, h2, h3, h4⟩
      rcases (ht x hxt).2 with h1 | h1
      · left
        intro z hz hzb
        rcases h1 z hz hzb with h2 | h2
        · exact Or.inl h2
        · exact Or.inr (htr z h2)
      · exact Or.inr (htr x h1)
  · intro t' k r x htt htk hr hx
    rw [ht1] at htt; cases htt
    obtain ⟨q, l, hq, rfl, hl⟩ := hinv k r hr
    rcases List.mem_append.1 hx with hx | hx
    · exact h.above t0 k q x ht0 (by omega) hq hx
    · exfalso
      obtain ⟨hxt, b, hb, hbk⟩ := (hl x).1 hx
      cases hk : c.kind with
      | boundary =>
        obtain ⟨t2, h1, _, h3, _⟩ := hj.raise hk ⟨x, hxt⟩
        rw [ht1] at h1; cases h1
        have := h3 x hxt b hb
        rw [hk] at hbk
        simp only [seedLevel] at hbk
        omega
      | neighbourhood =>
        rw [hk, ht0] at hbk
        simp only [seedLevel] at hbk
        omega
  · intro hk k r x hr hx
    obtain ⟨q, l, hq, rfl, hl⟩ := hinv k r hr
    rcases List.mem_append.1 hx with hx | hx
    · exact h.lvl hk k q x hq hx
    · obtain ⟨hxt, b, hb, hbk⟩ := (hl x).1 hx
      rw [hk] at hbk
      simp only [seedLevel] at hbk
      rw [hb, hbk]
  · intro hk t' x htt hx
    rw [ht1] at htt; cases htt
    exact Nat.le_trans (h.freeLe hk t0 x ht0 hx) ht01
  · intro x hx
    have hlt : seedLevel c.kind p.top (sidesOut D ext (pos x)) < p.queues.length := by
      have := seedLevel_le (k := c.kind) (t := p.top) (a := sidesOut D ext (pos x))
      have := (hnew x hx).2
      rw [h.size]
      omega
    obtain ⟨l, h1, h2, _⟩ := hj.queues _ _ (List.getElem?_eq_getElem hlt)
    refine ⟨_, _, h1, List.mem_append_right _ ((h2 x).2 ⟨hx, _, hg.bnd x (hnew x hx).1, rfl⟩), ?_⟩
    rw [hsl]

/-- all the groups join the pool -/
theorem joined {c : PoolCfg W} (hg : GridPool D ext n pos R c) {agg : List Bool} {Y : Nat → Prop} {dist : Nat → Nat}
    {order : Nat} : ∀ (gs : List NSet) {p p' : Pool}, JoinedInTurn c gs p p' → PoolGrid D ext n pos R c agg Y p →
    (∀ t ∈ gs, ∀ x ∈ t, agg[x]? = some false ∧
      ((∀ z, R x z → ¬ SameBlock D (pos x) (pos z) → agg[z]? = some true ∨
        (agg[z]? = some false ∧ sidesOut D ext (pos x) ≤ sidesOut D ext (pos z) ∧ ∃ w, Y w ∧ R w z)) ∨
      (∃ x', SameBlock D (pos x') (pos x) ∧ sidesOut D ext (pos x) ≤ sidesOut D ext (pos x') ∧ dist x' < dist x ∧
        dist x' < order ∧ ∃ u ∈ gs, x' ∈ u) ∨
      WaitAt D pos p (seedLevel c.kind p.top (sidesOut D ext (pos x))) x)) →
    (∀ t ∈ gs, ∀ x ∈ t, ∀ y ∈ t, dist x = dist y ∨ (order ≤ dist x ∧ order ≤ dist y)) →
    gs.Pairwise (fun t u => ∀ x ∈ t, ∀ y ∈ u, dist x < dist y) →
    PoolGrid D ext n pos R c agg Y p' ∧ (∀ b, seedLevel c.kind p'.top b = seedLevel c.kind p.top b) ∧
      (∀ (k : Nat) q, p.queues[k]? = some q → ∃ l, p'.queues[k]? = some (q ++ l)) ∧
      ∀ t ∈ gs, ∀ x ∈ t, ∃ k q, p'.queues[k]? = some q ∧ x ∈ q ∧
        seedLevel c.kind p'.top (sidesOut D ext (pos x)) ≤ k := by
  intro gs p p' hjt
  induction hjt with
  | none => exact fun h _ _ _ => ⟨h, fun _ => rfl, fun k q hq => ⟨[], by rw [List.append_nil]; exact hq⟩, fun t ht => by cases ht⟩
  | @next t gs p p1 p2 hj hrest ih =>
    intro h hx hsame hpw
    rw [List.pairwise_cons] at hpw
    have hpush := push_one hg h hj (by
      intro x hxt
      obtain ⟨hfr, hcase⟩ := hx t List.mem_cons_self x hxt
      refine ⟨hfr, ?_⟩
      rcases hcase with hA | ⟨x', _, _, hd, hdo, u, hu, hxu⟩ | hw
      · left
        intro z hz hzb
        rcases hA z hz hzb with h1 | ⟨h1, h2, w, h3, h4⟩
        · exact Or.inl h1
        · right
          obtain ⟨k, q, h5, h6, h7⟩ := h.wait z w h1 h3 h4
          exact ⟨k, q, z, Nat.le_trans (seedLevel_mono h2) h7, h5, h6, SameBlock.rfl'⟩
      · exfalso
        rcases List.mem_cons.1 hu with rfl | hu
        · rcases hsame u List.mem_cons_self x hxt x' hxu with h1 | h1 <;> omega
        · have := hpw.1 u hu x hxt x' hxu
          omega
      · exact Or.inr hw)
    obtain ⟨hinv1, hsl1, hext1, hin1⟩ := hpush
    obtain ⟨hinv2, hsl2, hext2, hin2⟩ := ih hinv1 (by
      intro t' ht' x hxt
      obtain ⟨hfr, hcase⟩ := hx t' (List.mem_cons_of_mem _ ht') x hxt
      refine ⟨hfr, ?_⟩
      rcases hcase with hA | ⟨x', hs1, hs2, hd, hdo, u, hu, hxu⟩ | ⟨k, q, w, h1, h2, h3, h4⟩
      · exact Or.inl hA
      · rcases List.mem_cons.1 hu with rfl | hu
        · right; right
          obtain ⟨k, q, h1, h2, h3⟩ := hin1 x' hxu
          exact ⟨k, q, x', Nat.le_trans (seedLevel_mono hs2) h3, h1, h2, hs1⟩
        · exact Or.inr (Or.inl ⟨x', hs1, hs2, hd, hdo, u, hu, hxu⟩)
      · right; right
        obtain ⟨l, hl⟩ := hext1 k q h2
        exact ⟨k, _, w, by rw [hsl1]; exact h1, hl, List.mem_append_left _ h3, h4⟩)
      (fun t' ht' => hsame t' (List.mem_cons_of_mem _ ht')) hpw.2
    refine ⟨hinv2, fun b => by rw [hsl2, hsl1], ?_, ?_⟩
    · intro k q hq
      obtain ⟨l, hl⟩ := hext1 k q hq
      obtain ⟨l', hl'⟩ := hext2 k _ hl
      exact ⟨l ++ l', by rw [hl', List.append_assoc]⟩
    · intro t' ht' x hxt
      rcases List.mem_cons.1 ht' with rfl | ht'
      · obtain ⟨k, q, h1, h2, h3⟩ := hin1 x hxt
        obtain ⟨l, hl⟩ := hext2 k q h1
        exact ⟨k, _, hl, List.mem_append_left _ h2, by rw [hsl2]; exact h3⟩
      · exact hin2 t' ht' x hxt

variable {F : Type}

theorem free_of_not {agg : List Bool} (hl : agg.length = n) {x : Nat} (hx : x < n) (h : ¬ agg[x]? = some true) :
    agg[x]? = some false := by
  have hxl : x < agg.length := by omega
  rw [List.getElem?_eq_getElem hxl] at h ⊢
  cases hb : agg[x] <;> simp_all

/-- distances from a corner to cells next to its block -/
theorem EvenGrid.dist {rowPtr colInd : List Nat} (G : EvenGrid D ext n pos (Adj rowPtr colInd)) {agg : List Bool} {s y x : Nat}
    (hs : s < n) (hf : ∀ y < n, SameBlock D (pos y) (pos s) → agg[y]? = some false) (hy : SameBlock D (pos y) (pos s))
    (hR : Adj rowPtr colInd y x) (hx : agg[x]? = some false) (hl : l1 D (pos s) (pos x) = l1 D (pos s) (pos y) + 1) :
    IsDistance (FreeAdj rowPtr colInd agg) (· = s) x (l1 D (pos s) (pos x)) := by
  refine ⟨⟨s, rfl, ?_⟩, ?_⟩
  · rw [hl]
    have hyn : y < n := ((G.grid.adj y x).1 hR).1
    exact Walk.step (G.walk (free := fun b => agg[b]? = some false) hs hf _ y hyn hy rfl) ⟨hR, hx⟩
  · rintro k w rfl hw
    exact G.grid.l1_walk (fun a b h => h.1) hw

/-- the neighbours of a new block join the pool -/
theorem queued {E : IsoEnv W F} {Grown : NMap Nat → Nat → List Nat → Prop}
    (hg : GridPool D ext n pos (Adj E.g.rowPtr E.g.colInd) E.pool) (hD : D ≤ E.g.dim)
    {agg agg' : List Bool} {p p2 : Pool} {s order : Nat} {S : NSet} (hl : agg.length = n)
    (hb : BlockSet D n pos (fun x => agg[x]? = some true)) (hs : agg[s]? = some false)
    (hc : Corner D pos (Adj E.g.rowPtr E.g.colInd) (fun x => agg[x]? = some true) s)
    (hS : ∀ x, x ∈ S ↔ x < n ∧ SameBlock D (pos x) (pos s)) (hgr : GrownCell E Grown agg s order S)
    (hq : SeedsQueued E agg s order S p p2) (hm : BlockMarked D n pos s agg agg')
    (h : PoolGrid D ext n pos (Adj E.g.rowPtr E.g.colInd) E.pool agg' (fun y => agg[y]? = some true) p) :
    PoolGrid D ext n pos (Adj E.g.rowPtr E.g.colInd) E.pool agg' (fun y => agg'[y]? = some true) p2 := by
  have hsn := lt_of_agg hs hl
  have hfr : ∀ y < n, SameBlock D (pos y) (pos s) → agg[y]? = some false := by
    intro y hy hys
    refine free_of_not hl hy (fun hyt => ?_)
    have := hb y hy s hsn hys hyt
    simp only [hs] at this
    cases this
  obtain ⟨gs, hne, hmem, hsame, hpw, hjt⟩ := hq
  have hin : ∀ t ∈ gs, ∀ x ∈ t, agg[x]? = some false ∧ ¬ SameBlock D (pos x) (pos s) ∧
      ∃ y, SameBlock D (pos y) (pos s) ∧ Adj E.g.rowPtr E.g.colInd y x := by
    intro t ht x hx
    obtain ⟨h1, h2, y, h3, h4⟩ := (hmem x).1 ⟨t, ht, hx⟩
    exact ⟨h2, fun hxs => h1 ((hS x).2 ⟨lt_of_agg h2 hl, hxs⟩), y, ((hS y).1 h3).2, h4⟩
  have hnf : ∀ {x : Nat}, agg[x]? = some false → ¬ agg[x]? = some true := fun h h' => by rw [h] at h'; cases h'
  have hdist : ∀ t ∈ gs, ∀ x ∈ t, IsDistance (FreeAdj E.g.rowPtr E.g.colInd agg) (· = s) x (l1 D (pos s) (pos x)) := by
    intro t ht x hx
    obtain ⟨h1, h2, y, h3, h4⟩ := hin t ht x hx
    exact hg.grid.dist hsn hfr h3 h4 h1 (hg.grid.push hb hsn hc h3 h4 (hnf h1) h2).1
  obtain ⟨d, hd1, hd2, -⟩ := hgr
  have hj := joined hg (agg := agg') (dist := fun x => l1 D (pos s) (pos x)) (order := order) gs hjt h ?_ ?_ ?_
  · obtain ⟨hinv, hsl, hext, hwait⟩ := hj
    refine ⟨hinv.len, hinv.size, hinv.blk, ?_, hinv.good, hinv.above, hinv.lvl, hinv.freeLe, hinv.topSome⟩
    intro x y hx hy hR
    by_cases hys : SameBlock D (pos y) (pos s)
    · obtain ⟨h1, h2⟩ := hm.free hx
      obtain ⟨t, ht, hxt⟩ := (hmem x).2 ⟨fun hxS => h2 ((hS x).1 hxS).2, h1, y,
        (hS y).2 ⟨lt_of_agg hy hm.len, hys⟩, hR⟩
      exact hwait t ht x hxt
    · simp only [hm.old y hys] at hy
      exact hinv.wait x y hx hy hR
  · intro t ht x hx
    obtain ⟨h1, h2, y, h3, h4⟩ := hin t ht x hx
    have hxn := lt_of_agg h1 hl
    refine ⟨by rw [hm.old x h2]; exact h1, ?_⟩
    rcases (hg.grid.push hb hsn hc h3 h4 (hnf h1) h2).2 with hA | ⟨x', y', h5, h6, h7, h8, h9, h10, h11, h12⟩
    · left
      intro z hz hzb
      have hzn : z < n := ((hg.grid.grid.adj x z).1 hz).2.1
      by_cases hzt : agg'[z]? = some true
      · exact Or.inl hzt
      · right
        have hzf := free_of_not hm.len hzn hzt
        rcases hA z hz hzb with h5 | h5 | ⟨h5, h6⟩
        · exact absurd (hm.mono hl h5) hzt
        · exact absurd (hm.new z hzn h5) hzt
        · exact ⟨hzf, h5, h6⟩
    · right; left
      have hx's : ¬ SameBlock D (pos x') (pos s) := fun h => h2 (h6.symm.trans h)
      have hx'f : agg[x']? = some false := by
        refine free_of_not hl h5 (fun ht' => ?_)
        exact hnf h1 (hb x' h5 x hxn h6 ht')
      have hdx' := hg.grid.dist hsn hfr h8 h9 hx'f h10
      refine ⟨x', h6, h7, by omega, ?_, ?_⟩
      · rcases hd2 with hd2 | ⟨hd2, _⟩
        · rcases hd2 x' ⟨_, hdx'.1⟩ with rfl | hk
          · exact absurd SameBlock.rfl' hx's
          · rw [NMap.mem_keySet, NMap.mem_keys] at hk
            obtain ⟨v, hv⟩ := hk
            obtain ⟨h13, _, h14⟩ := (hd1 x' v).1 hv
            rw [hdx'.unique h13]
            exact h14
        · have := hg.dim
          split at hd2 <;> omega
      · exact (hmem x').2 ⟨fun hS' => hx's ((hS x').1 hS').2, hx'f, y', (hS y').2 ⟨((hg.grid.grid.adj y' x').1 h9).1, h8⟩, h9⟩
  · intro t ht x hx y hy
    exact hsame t ht x hx y hy _ _ (hdist t ht x hx) (hdist t ht y hy)
  · refine hpw.imp_of_mem ?_
    intro t u ht hu htu x hx y hy
    exact (htu x hx y hy _ _ (hdist t ht x hx) (hdist u hu y hy)).1

theorem EvenGrid.exists_corner (G : EvenGrid D ext n pos R) (hn : 0 < n) : ∃ x < n, sidesOut D ext (pos x) = D := by
  have h2 := G.two_le hn
  obtain ⟨x, hx, h⟩ := G.grid.surj (fun _ => 0) (fun ax hax => by have := h2 ax hax; omega)
  refine ⟨x, hx, ?_⟩
  unfold sidesOut
  rw [Finset.sum_congr rfl (g := fun _ => 1), sum_ones]
  intro ax hax
  have := h2 ax (Finset.mem_range.1 hax)
  rw [h ax (Finset.mem_range.1 hax), if_pos rfl, if_neg (by omega)]

/-- a new pool -/
theorem started {c : PoolCfg W} (hg : GridPool D ext n pos R c) {p : Pool} (h : PoolStarted c p) :
    PoolGrid D ext n pos R c (List.replicate n false) (fun y => (List.replicate n false)[y]? = some true) p ∧
    ∃ (t : Nat) (q : List Nat) (x : Nat), p.top = some t ∧ p.queues[t]? = some q ∧ x ∈ q ∧
      (List.replicate n false)[x]? = some false := by
  obtain ⟨t, l, ht, htm, hmax, hq, hpr, hl⟩ := h.start
  rw [hg.len] at hl
  have hfalse : ∀ x < n, (List.replicate n false)[x]? = some false := by
    intro x hx
    rw [List.getElem?_replicate_of_lt hx]
  have hno : ∀ x : Nat, ¬ (List.replicate n false)[x]? = some true := by
    intro x h
    rw [List.getElem?_replicate] at h
    split at h <;> cases h
  have hn : 0 < n := by
    rw [← hg.len]
    exact List.length_pos_of_mem htm
  have htD : t = D := by
    obtain ⟨x, hx, hxD⟩ := hg.grid.exists_corner hn
    have h1 := hmax D (by
      have := hg.bnd x hx
      rw [hxD] at this
      exact List.mem_of_getElem? this)
    obtain ⟨i, hi⟩ := List.mem_iff_getElem?.1 htm
    have hin : i < n := by rw [← hg.len]; exact (List.getElem?_eq_some_iff.1 hi).1
    rw [hg.bnd i hin] at hi
    have := sidesOut_le (hg.grid.two_le hn) (pos i)
    cases hi
    omega
  have hent : ∀ (k : Nat) q x, p.queues[k]? = some q → x ∈ q → k = t ∧ c.nBnd[x]? = some t := by
    intro k q x hkq hx
    rw [hq, List.getElem?_set] at hkq
    by_cases hkt : t = k
    · subst hkt
      refine ⟨rfl, ?_⟩
      rw [if_pos rfl] at hkq
      split at hkq
      · cases hkq
        split at hx
        · exact ((hl x).1 (List.mem_of_mem_take hx)).1
        · exact ((hl x).1 hx).1
      · cases hkq
    · rw [if_neg hkt] at hkq
      exfalso
      match k, hkq with
      | 0, h => cases h; cases hx
      | 1, h => cases h; cases hx
      | 2, h => cases h; cases hx
      | 3, h => cases h; cases hx
      | k + 4, h => simp at h
  have hlt : t < 4 := by have := hg.dim; omega
  refine ⟨⟨List.length_replicate, by rw [hq]; simp, ?_, ?_, ?_, ?_, ?_, ?_, ⟨t, ht⟩⟩, ?_⟩
  · intro x _ y _ _ hx
    exact absurd hx (hno x)
  · intro x y _ hy
    exact absurd hy (hno y)
  · intro k q i x hkq hi hx
    left
    intro z hz hzb
    have hxn := lt_of_agg hx List.length_replicate
    have h1 := (hent k q x hkq (List.mem_of_getElem? hi)).2
    rw [hg.bnd x hxn, htD] at h1
    exact absurd (hg.grid.cornerCell hxn (Option.some.inj h1) hz) hzb
  · intro t' k q x htt htk hkq hx
    rw [ht] at htt; cases htt
    have := (hent k q x hkq hx).1
    omega
  · intro _ k q x hkq hx
    obtain ⟨rfl, h1⟩ := hent k q x hkq hx
    exact h1
  · intro _ t' x htt hx
    rw [ht] at htt; cases htt
    exact hmax _ (List.mem_of_getElem? (hg.bnd x (lt_of_agg hx List.length_replicate)))
  · obtain ⟨i, hi⟩ := List.mem_iff_getElem?.1 htm
    have hin : i < n := by rw [← hg.len]; exact (List.getElem?_eq_some_iff.1 hi).1
    have hil : i ∈ l := (hl i).2 ⟨hi, hfalse i hin⟩
    have hqt : p.queues[t]? = some (if c.onePoint then l.take 1 else l) := by
      rw [hq, List.getElem?_set_self (by simpa using hlt)]
    match l, hil with
    | a :: l', _ =>
      refine ⟨t, _, a, ht, hqt, ?_, ((hl a).1 List.mem_cons_self).2⟩
      split
      · exact List.mem_cons_self
      · exact List.mem_cons_self

/-- the coarse cells of a run are blocks, if those grown from a corner are -/
theorem trace_blocks {E : IsoEnv W F} {Grown : NMap Nat → Nat → List Nat → Prop}
    (hg : GridPool D ext n pos (Adj E.g.rowPtr E.g.colInd) E.pool) (hD : D ≤ E.g.dim)
    (hgrow : ∀ (agg : List Bool) (s order : Nat) (S : NSet), agg.length = n →
      BlockSet D n pos (fun x => agg[x]? = some true) → agg[s]? = some false →
      Corner D pos (Adj E.g.rowPtr E.g.colInd) (fun x => agg[x]? = some true) s → GrownCell E Grown agg s order S →
      ∀ x, x ∈ S ↔ x < n ∧ SameBlock D (pos x) (pos s))
    {p0 : Pool} (h0 : PoolStarted E.pool p0) {cs : List (Nat × NSet)} {agg : List Bool} {p : Pool}
    (ht : IsoTrace E Grown (List.replicate n false) p0 cs agg p) :
    (PoolGrid D ext n pos (Adj E.g.rowPtr E.g.colInd) E.pool agg (fun y => agg[y]? = some true) p ∧
      ((∃ y : Nat, agg[y]? = some true) ∨ ∃ (t : Nat) (q : List Nat) (x : Nat), p.top = some t ∧ p.queues[t]? = some q ∧
        x ∈ q ∧ agg[x]? = some false)) ∧
    ∀ c ∈ cs, c.1 < n ∧ ∀ x, x ∈ c.2 ↔ x < n ∧ SameBlock D (pos x) (pos c.1) := by
  induction ht with
  | start =>
    obtain ⟨h1, h2⟩ := started hg h0
    exact ⟨⟨h1, Or.inr h2⟩, fun c hc => by cases hc⟩
  | @turn cs agg agg' p p1 p2 seed order S _ hch hgr hqd hagg ih =>
    obtain ⟨⟨hinv, hst⟩, hcs⟩ := ih
    obtain ⟨hs, hco, hnext⟩ := pop hg hinv hst hch
    have hS := hgrow agg seed order S hinv.len hinv.blk hs hco hgr
    have hsn := lt_of_agg hs hinv.len
    have hm : BlockMarked D n pos seed agg agg' := by
      refine ⟨?_, ?_, ?_⟩
      · have hlen : ∀ i : Nat, agg'[i]? = none ↔ agg[i]? = none := by
          intro i
          rw [hagg i]
          by_cases hi : i ∈ S
          · rw [if_pos hi]
            have := ((hS i).1 hi).1
            rw [List.getElem?_eq_none_iff, hinv.len]
            constructor
            · intro h; cases h
            · intro h; omega
          · rw [if_neg hi]
        have h1 := hlen n
        have h2 := hlen (n - 1)
        rw [List.getElem?_eq_none_iff, List.getElem?_eq_none_iff, hinv.len] at h1 h2
        omega
      · intro x hx hxs
        rw [hagg x, if_pos ((hS x).2 ⟨hx, hxs⟩)]
      · intro x hxs
        rw [hagg x, if_neg (fun h => hxs ((hS x).1 h).2)]
    refine ⟨⟨queued hg hD hinv.len hinv.blk hs hco hS hgr hqd hm (hnext agg' hm),
      Or.inl ⟨seed, hm.new seed hsn SameBlock.rfl'⟩⟩, ?_⟩
    intro c hc
    rcases List.mem_append.1 hc with hc | hc
    · exact hcs c hc
    · rw [List.mem_singleton] at hc
      subst hc
      exact ⟨hsn, hS⟩

end CoMMA
