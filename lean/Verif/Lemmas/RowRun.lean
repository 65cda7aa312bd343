import Verif.Lemmas.RowGrow
import Verif.Spec.RowGroups
/-! # Runs on a row of cells

The free cells are always next to each other, and the seed given by the pool is at one of their
ends. -/

set_option linter.unusedSectionVars false

namespace CoMMA.Row

variable {W F : Type} [Num W]
variable {ext : Nat → Nat} {n : Nat} {pos : Nat → Nat → Nat} {R : Nat → Nat → Prop}

/-- a pool of seeds on a row -/
structure RowCfg (ext : Nat → Nat) (n : Nat) (pos : Nat → Nat → Nat) (R : Nat → Nat → Prop) (c : PoolCfg W) : Prop where
  grid : IsGrid 1 ext n pos R
  bnd : ∀ x < n, c.nBnd[x]? = some (sidesOut 1 ext (pos x))
  len : c.nBnd.length = n

/-- the free cells are those from `lo` to before `hi` -/
structure FreeRow (ext : Nat → Nat) (n : Nat) (pos : Nat → Nat → Nat) (agg : List Bool) (lo hi : Nat) : Prop where
  len : agg.length = n
  le : lo ≤ hi
  last : hi ≤ ext 0
  free : ∀ x < n, (agg[x]? = some false ↔ lo ≤ pos x 0 ∧ pos x 0 < hi)

/-- invariant of the pool; cells next to the cells `Y` wait -/
structure PoolRow (ext : Nat → Nat) (n : Nat) (pos : Nat → Nat → Nat) (R : Nat → Nat → Prop) (c : PoolCfg W)
    (agg : List Bool) (lo hi : Nat) (Y : Nat → Prop) (p : Pool) : Prop where
  row : FreeRow ext n pos agg lo hi
  size : p.queues.length = 4
  wait : ∀ x y, agg[x]? = some false → Y y → R y x → ∃ (k : Nat) (q : List Nat), p.queues[k]? = some q ∧ x ∈ q
  good : ∀ (k : Nat) q x, p.queues[k]? = some q → x ∈ q → agg[x]? = some false → pos x 0 = lo ∨ pos x 0 + 1 = hi
  above : ∀ (t k : Nat) q x, p.top = some t → t < k → p.queues[k]? = some q → x ∈ q → agg[x]? = some true
  lvl : c.kind = .boundary → ∀ (k : Nat) q x, p.queues[k]? = some q → x ∈ q → c.nBnd[x]? = some k
  freeLe : c.kind = .boundary → ∀ t x, p.top = some t → agg[x]? = some false → sidesOut 1 ext (pos x) ≤ t
  topSome : ∃ t, p.top = some t

theorem sides (u : Nat → Nat) : sidesOut 1 ext u = (if u 0 = 0 then 1 else 0) + (if u 0 + 1 = ext 0 then 1 else 0) := by
  unfold sidesOut
  simp

theorem sides_le (u : Nat → Nat) : sidesOut 1 ext u ≤ 2 := by
  rw [sides]
  split <;> split <;> omega

theorem FreeRow.covered {agg : List Bool} {lo hi : Nat} (h : FreeRow ext n pos agg lo hi) {x : Nat} (hx : x < n)
    (hn : ¬ (lo ≤ pos x 0 ∧ pos x 0 < hi)) : agg[x]? = some true := by
  by_contra hne
  exact hn ((h.free x hx).1 (free_of_not h.len hx hne))

/-- a seed is taken -/
theorem pop_core {c : PoolCfg W} {agg : List Bool} {lo hi : Nat} {p p1 : Pool} {s k : Nat} {q rest : List Nat}
    (h : PoolRow ext n pos R c agg lo hi (fun y => agg[y]? = some true) p)
    (hq : p.queues[k]? = some q)
    (hab : ∀ (k' : Nat) q' x, k < k' → p.queues[k']? = some q' → x ∈ q' → agg[x]? = some true)
    (hc : (∃ pre, q = pre ++ s :: rest ∧ ∀ x ∈ pre, agg[x]? = some true) ∨
      ((∀ x ∈ q, agg[x]? = some true) ∧ ∀ x ∈ s :: rest, c.nBnd[x]? = some k ∧ (pos x 0 = lo ∨ pos x 0 + 1 = hi)))
    (hle : c.kind = .boundary → ∀ x, agg[x]? = some false → sidesOut 1 ext (pos x) ≤ k)
    (hsf : agg[s]? = some false)
    (ht1 : p1.top = some k) (hl1 : p1.queues.length = p.queues.length)
    (hq1 : ∀ (j : Nat) r, p.queues[j]? = some r → ∃ r', p1.queues[j]? = some r' ∧
      ((j = k ∧ r' = rest) ∨ (j ≠ k ∧ (r' = r ∨ (r' = [] ∧ ∀ x ∈ r, agg[x]? = some true))))) :
    (pos s 0 = lo ∨ pos s 0 + 1 = hi) ∧
      ∀ agg' lo' hi', FreeRow ext n pos agg' lo' hi' → lo ≤ lo' → hi' ≤ hi → agg'[s]? = some true →
        PoolRow ext n pos R c agg' lo' hi' (fun y => agg[y]? = some true) p1 := by
  have hq1' : ∀ (j : Nat) r', p1.queues[j]? = some r' → ∃ r, p.queues[j]? = some r ∧
      ((j = k ∧ r' = rest) ∨ (j ≠ k ∧ (r' = r ∨ (r' = [] ∧ ∀ x ∈ r, agg[x]? = some true)))) := by
    intro j r' hr
    have : j < p.queues.length := by rw [← hl1]; exact (List.getElem?_eq_some_iff.1 hr).1
    obtain ⟨r'', e1, e2⟩ := hq1 j _ (List.getElem?_eq_getElem this)
    rw [hr] at e1
    cases e1
    exact ⟨_, List.getElem?_eq_getElem this, e2⟩
  refine ⟨?_, ?_⟩
  · rcases hc with ⟨pre, he, _⟩ | ⟨_, hc⟩
    · exact h.good k q s hq (by rw [he]; simp) hsf
    · exact (hc s List.mem_cons_self).2
  · intro agg' lo' hi' hrow hlo hhi hs'
    have hback : ∀ x, agg'[x]? = some false → agg[x]? = some false ∧ x < n ∧ lo' ≤ pos x 0 ∧ pos x 0 < hi' := by
      intro x hx
      have hxn := lt_of_agg hx hrow.len
      have := (hrow.free x hxn).1 hx
      exact ⟨(h.row.free x hxn).2 ⟨by omega, by omega⟩, hxn, this⟩
    have hkeep : ∀ x : Nat, agg[x]? = some true → agg'[x]? = some true := by
      intro x hx
      have hxn : x < n := by rw [← h.row.len]; exact (List.getElem?_eq_some_iff.1 hx).1
      by_contra hne
      have := (hback x (free_of_not hrow.len hxn hne)).1
      rw [hx] at this; cases this
    refine ⟨hrow, by rw [hl1]; exact h.size, ?_, ?_, ?_, ?_, ?_, ⟨k, ht1⟩⟩
    · intro x y hx hy hR
      have hxf := (hback x hx).1
      obtain ⟨j, r, hr, hxr⟩ := h.wait x y hxf hy hR
      obtain ⟨r', hr', ⟨rfl, rfl⟩ | ⟨_, rfl | ⟨_, hcov⟩⟩⟩ := hq1 j r hr
      · refine ⟨j, _, hr', ?_⟩
        rw [hq] at hr; cases hr
        rcases hc with ⟨pre, he, hpre⟩ | ⟨hcov, _⟩
        · rw [he] at hxr
          rcases List.mem_append.1 hxr with h1 | h1
          · have := hpre x h1
            rw [hxf] at this; cases this
          · rcases List.mem_cons.1 h1 with rfl | h1
            · rw [hx] at hs'; cases hs'
            · exact h1
        · have := hcov x hxr
          rw [hxf] at this; cases this
      · exact ⟨j, _, hr', hxr⟩
      · have := hcov x hxr
        rw [hxf] at this; cases this
    · intro j r' x hr hx hxf
      obtain ⟨hxf', _, h1, h2⟩ := hback x hxf
      have key : pos x 0 = lo ∨ pos x 0 + 1 = hi := by
        obtain ⟨r, hjr, ⟨rfl, rfl⟩ | ⟨hjk, rfl | ⟨rfl, _⟩⟩⟩ := hq1' j r' hr
        · rcases hc with ⟨pre, he, hpre⟩ | ⟨_, hc⟩
          · exact h.good j q x hq (by rw [he]; simp [hx]) hxf'
          · exact (hc x (List.mem_cons_of_mem _ hx)).2
        · exact h.good j _ x hjr hx hxf'
        · cases hx
      omega
    · intro t j r' x htt htj hr hx
      rw [ht1] at htt; cases htt
      obtain ⟨r, hjr, ⟨rfl, rfl⟩ | ⟨hjk, rfl | ⟨rfl, _⟩⟩⟩ := hq1' j r' hr
      · omega
      · exact hkeep x (hab j _ x htj hjr hx)
      · cases hx
    · intro hk j r' x hr hx
      obtain ⟨r, hjr, ⟨rfl, rfl⟩ | ⟨hjk, rfl | ⟨rfl, _⟩⟩⟩ := hq1' j r' hr
      · rcases hc with ⟨pre, he, hpre⟩ | ⟨_, hrest⟩
        · exact h.lvl hk j q x hq (by rw [he]; simp [hx])
        · exact (hrest x (List.mem_cons_of_mem _ hx)).1
      · exact h.lvl hk j _ x hjr hx
      · cases hx
    · intro hk t x htt hx
      rw [ht1] at htt; cases htt
      exact hle hk x (hback x hx).1

/-- a free cell next to one that is taken -/
theorem frontier (G : IsGrid 1 ext n pos R) {agg : List Bool} {lo hi : Nat} (h : FreeRow ext n pos agg lo hi) (hlt : lo < hi)
    {y : Nat} (hy : agg[y]? = some true) : ∃ u v, agg[u]? = some false ∧ agg[v]? = some true ∧ R v u := by
  have hyn : y < n := by rw [← h.len]; exact (List.getElem?_eq_some_iff.1 hy).1
  have hno : ¬ (lo ≤ pos y 0 ∧ pos y 0 < hi) := fun hc => by
    have := (h.free y hyn).2 hc
    rw [hy] at this; cases this
  have hr := G.range y hyn 0 (by omega)
  have hhi := h.last
  by_cases hc : pos y 0 < lo
  · obtain ⟨u, hu, e⟩ := get G (v := lo) (by omega)
    obtain ⟨v, hv, e'⟩ := get G (v := lo - 1) (by omega)
    exact ⟨u, v, (h.free u hu).2 (by omega), h.covered hv (by omega), (adj_iff G).2 ⟨hv, hu, by omega⟩⟩
  · obtain ⟨u, hu, e⟩ := get G (v := hi - 1) (by omega)
    obtain ⟨v, hv, e'⟩ := get G (v := hi) (by omega)
    exact ⟨u, v, (h.free u hu).2 (by omega), h.covered hv (by omega), (adj_iff G).2 ⟨hv, hu, by omega⟩⟩

/-- the seed given by the pool is at an end of the free cells -/
theorem pop {c : PoolCfg W} (hg : RowCfg ext n pos R c) {agg : List Bool} {lo hi : Nat} {p p1 : Pool} {s : Nat}
    (h : PoolRow ext n pos R c agg lo hi (fun y => agg[y]? = some true) p)
    (hst : (∃ y : Nat, agg[y]? = some true) ∨ ∃ (k : Nat) (q : List Nat) (x : Nat), p.queues[k]? = some q ∧ x ∈ q ∧ agg[x]? = some false)
    (hc : SeedChosen c agg p (some s) p1) :
    agg[s]? = some false ∧ (pos s 0 = lo ∨ pos s 0 + 1 = hi) ∧
      ∀ agg' lo' hi', FreeRow ext n pos agg' lo' hi' → lo ≤ lo' → hi' ≤ hi → agg'[s]? = some true →
        PoolRow ext n pos R c agg' lo' hi' (fun y => agg[y]? = some true) p1 := by
  cases hc with
  | @waiting t k _ q rest _ ht hlo hkt hnone hq hff ht1 hl1 hq1 =>
    obtain ⟨pre, he, hpre, hs⟩ := hff
    refine ⟨hs, pop_core h hq ?_ (Or.inl ⟨pre, he, hpre⟩) ?_ hs ht1 hl1 ?_⟩
    · intro k' q' x hk' hq' hx
      by_cases hle : k' ≤ t
      · exact hnone k' q' (by omega) hle hq' x hx
      · exact h.above t k' q' x ht (by omega) hq' hx
    · intro hk x hx
      rw [hk] at hlo
      have : k = t := Nat.le_antisymm hkt hlo
      subst this
      exact h.freeLe hk _ x ht hx
    · intro j r hr
      refine ⟨_, hq1 j r hr, ?_⟩
      by_cases hjk : j = k
      · left; rw [if_pos hjk]; exact ⟨hjk, rfl⟩
      · right
        rw [if_neg hjk]
        refine ⟨hjk, ?_⟩
        by_cases hj : k < j ∧ j ≤ t
        · right; rw [if_pos hj]
          exact ⟨rfl, hnone j r (by omega) hj.2 hr⟩
        · left; rw [if_neg hj]
  | @otherLevel t cur _ q rest _ ht hnone hnext hq hff ht1 hl1 hq1 =>
    obtain ⟨i, hib, hif⟩ : ∃ i : Nat, c.nBnd[i]? = some cur ∧ agg[i]? = some false := by
      rcases hnext with ⟨i, h1, h2, _⟩ | ⟨⟨i, h1, h2⟩, _⟩ <;> exact ⟨i, h1, h2⟩
    have hin : i < n := lt_of_agg hif h.row.len
    have hlt : lo < hi := by have := (h.row.free i hin).1 hif; omega
    cases hk : c.kind with
    | neighbourhood =>
      exfalso
      rw [hk] at hnone
      have hall : ∀ (k : Nat) q x, p.queues[k]? = some q → x ∈ q → agg[x]? = some true := by
        intro k q x hq hx
        by_cases hle : k ≤ t
        · exact hnone k q (Nat.zero_le _) hle hq x hx
        · exact h.above t k q x ht (by omega) hq hx
      rcases hst with ⟨y, hy⟩ | ⟨t', q', x, h2, h3, h4⟩
      · obtain ⟨u, v, h1, h2, h3⟩ := frontier hg.grid h.row hlt hy
        obtain ⟨k, q, h4, h5⟩ := h.wait u v h1 h2 h3
        have := hall k q u h4 h5
        rw [h1] at this; cases this
      · have := hall t' q' x h2 h3
        rw [h4] at this; cases this
    | boundary =>
      rw [hk] at hnone hq1
      have hmax : ∀ x, agg[x]? = some false → sidesOut 1 ext (pos x) ≤ cur := by
        intro x hx
        rcases hnext with ⟨i', h1, h2, h3, _⟩ | ⟨_, _, h3⟩
        · exact Nat.le_trans (h.freeLe hk t x ht hx) h3
        · exact h3 x _ (hg.bnd x (lt_of_agg hx h.row.len)) hx
      have hab : ∀ (k' : Nat) q' x, cur < k' → p.queues[k']? = some q' → x ∈ q' → agg[x]? = some true := by
        intro k' q' x hk' hq' hx
        have hb := h.lvl hk k' q' x hq' hx
        have hxn : x < n := by rw [← hg.len]; exact (List.getElem?_eq_some_iff.1 hb).1
        by_contra hne
        have := hmax x (free_of_not h.row.len hxn hne)
        rw [hg.bnd x hxn] at hb
        cases hb
        omega
      have hq1c : ∀ (j : Nat) r, p.queues[j]? = some r → ∃ r', p1.queues[j]? = some r' ∧
          ((j = cur ∧ r' = rest) ∨ (j ≠ cur ∧ (r' = r ∨ (r' = [] ∧ ∀ x ∈ r, agg[x]? = some true)))) := by
        intro j r hr
        refine ⟨_, hq1 j r hr, ?_⟩
        by_cases hjk : j = cur
        · left; rw [if_pos hjk]; exact ⟨hjk, rfl⟩
        · right
          rw [if_neg hjk]
          refine ⟨hjk, ?_⟩
          by_cases hj : lowestLevel .boundary t ≤ j ∧ j ≤ t
          · right; rw [if_pos hj]
            exact ⟨rfl, hnone j r hj.1 hj.2 hr⟩
          · left; rw [if_neg hj]
      rcases hff with ⟨pre, he, hpre, hs⟩ | ⟨hcov, hfl⟩
      · exact ⟨hs, pop_core h hq hab (Or.inl ⟨pre, he, hpre⟩) (fun _ => hmax) hs ht1 hl1 hq1c⟩
      · have hmem : ∀ x ∈ s :: rest, c.nBnd[x]? = some cur ∧ agg[x]? = some false := fun x hx => (hfl.2 x).1 hx
        have hs := (hmem s List.mem_cons_self).2
        refine ⟨hs, pop_core h hq hab (Or.inr ⟨hcov, fun x hx => ⟨(hmem x hx).1, ?_⟩⟩) (fun _ => hmax) hs ht1 hl1 hq1c⟩
        obtain ⟨hxb, hxf⟩ := hmem x hx
        have hxn := lt_of_agg hxf h.row.len
        have hxr := (h.row.free x hxn).1 hxf
        rw [hg.bnd x hxn, sides] at hxb
        have hxb := Option.some.inj hxb
        have hhi := h.row.last
        by_cases hcur : cur = 0
        · -- both ends are taken
          exfalso
          obtain ⟨u, hu, e⟩ := get hg.grid (v := lo) (by omega)
          have huf := (h.row.free u hu).2 (by omega)
          have h0 := hmax u huf
          rw [sides] at h0
          have hu0 : pos u 0 ≠ 0 := fun e0 => by rw [if_pos e0] at h0; omega
          obtain ⟨v, hv, e'⟩ := get hg.grid (v := lo - 1) (by omega)
          obtain ⟨k, q', h5, h6⟩ := h.wait u v huf (h.row.covered hv (by omega)) ((adj_iff hg.grid).2 ⟨hv, hu, by omega⟩)
          have := h.lvl hk k q' u h5 h6
          rw [hg.bnd u hu, sides] at this
          have := Option.some.inj this
          have : k = cur := by omega
          subst this
          rw [hq] at h5; cases h5
          have := hcov u h6
          rw [huf] at this; cases this
        · by_cases h0 : pos x 0 = 0
          · left; omega
          · right
            rw [if_neg h0] at hxb
            by_cases h1 : pos x 0 + 1 = ext 0
            · omega
            · rw [if_neg h1] at hxb
              omega

/-- one group of seeds joins the pool -/
theorem push_one {c : PoolCfg W} (hg : RowCfg ext n pos R c) {agg : List Bool} {lo hi : Nat} {Y : Nat → Prop} {p p1 : Pool} {t : NSet}
    (h : PoolRow ext n pos R c agg lo hi Y p) (hj : SeedsJoined c t p p1)
    (ht : ∀ x ∈ t, agg[x]? = some false ∧ (pos x 0 = lo ∨ pos x 0 + 1 = hi)) :
    PoolRow ext n pos R c agg lo hi (fun y => Y y) p1 ∧
    (∀ (k : Nat) q, p.queues[k]? = some q → ∃ l, p1.queues[k]? = some (q ++ l)) ∧
    (∀ x ∈ t, ∃ (k : Nat) (q : List Nat), p1.queues[k]? = some q ∧ x ∈ q) := by
  have hext : ∀ (k : Nat) q, p.queues[k]? = some q → ∃ l, p1.queues[k]? = some (q ++ l) := by
    intro k q hq
    obtain ⟨l, h1, _⟩ := hj.queues k q hq
    exact ⟨l, h1⟩
  obtain ⟨t0, ht0⟩ := h.topSome
  have htop : ∃ t1, p1.top = some t1 ∧ t0 ≤ t1 := by
    by_cases hem : ∃ s, s ∈ t
    · cases hk : c.kind with
      | boundary =>
        obtain ⟨t1, h1, h2, _⟩ := hj.raise hk hem
        exact ⟨t1, h1, h2 t0 ht0⟩
      | neighbourhood => exact ⟨t0, by rw [hj.keep (Or.inl hk), ht0], Nat.le_refl _⟩
    · exact ⟨t0, by rw [hj.keep (Or.inr (fun s hs => hem ⟨s, hs⟩)), ht0], Nat.le_refl _⟩
  obtain ⟨t1, ht1, ht01⟩ := htop
  have hinv : ∀ (k : Nat) r, p1.queues[k]? = some r → ∃ q l, p.queues[k]? = some q ∧ r = q ++ l ∧
      ∀ s, s ∈ l ↔ s ∈ t ∧ ∃ b, c.nBnd[s]? = some b ∧ seedLevel c.kind p.top b = k := by
    intro k r hr
    have hk : k < p.queues.length := by rw [← hj.size]; exact (List.getElem?_eq_some_iff.1 hr).1
    obtain ⟨l, h1, h2, _⟩ := hj.queues k _ (List.getElem?_eq_getElem hk)
    rw [hr] at h1
    cases h1
    exact ⟨_, l, List.getElem?_eq_getElem hk, rfl, h2⟩
  refine ⟨⟨h.row, by rw [hj.size]; exact h.size, ?_, ?_, ?_, ?_, ?_, ⟨t1, ht1⟩⟩, hext, ?_⟩
  · intro x y hx hy hR
    obtain ⟨k, q, h1, h2⟩ := h.wait x y hx hy hR
    obtain ⟨l, hl⟩ := hext k q h1
    exact ⟨k, _, hl, List.mem_append_left _ h2⟩
  · intro k r x hr hi hx
    obtain ⟨q, l, hq, rfl, hl⟩ := hinv k r hr
    rcases List.mem_append.1 hi with hi | hi
    · exact h.good k q x hq hi hx
    · exact (ht x ((hl x).1 hi).1).2
  · intro t' k r x htt htk hr hx
    rw [ht1] at htt; cases htt
    obtain ⟨q, l, hq, rfl, hl⟩ := hinv k r hr
    rcases List.mem_append.1 hx with hx | hx
    · exact h.above t0 k q x ht0 (by omega) hq hx
    · exfalso
      obtain ⟨hxt, b, hb, hbk⟩ := (hl x).1 hx
      cases hk : c.kind with
      | boundary =>
        obtain ⟨t2, h1, _, h3, _⟩ := hj.raise hk ⟨x, hxt⟩
        rw [ht1] at h1; cases h1
        have := h3 x hxt b hb
        rw [hk] at hbk
        simp only [seedLevel] at hbk
        omega
      | neighbourhood =>
        rw [hk, ht0] at hbk
        simp only [seedLevel] at hbk
        omega
  · intro hk k r x hr hx
    obtain ⟨q, l, hq, rfl, hl⟩ := hinv k r hr
    rcases List.mem_append.1 hx with hx | hx
    · exact h.lvl hk k q x hq hx
    · obtain ⟨hxt, b, hb, hbk⟩ := (hl x).1 hx
      rw [hk] at hbk
      simp only [seedLevel] at hbk
      rw [hb, hbk]
  · intro hk t' x htt hx
    rw [ht1] at htt; cases htt
    exact Nat.le_trans (h.freeLe hk t0 x ht0 hx) ht01
  · intro x hx
    have hxn := lt_of_agg (ht x hx).1 h.row.len
    have hlt : seedLevel c.kind p.top (sidesOut 1 ext (pos x)) < p.queues.length := by
      have := seedLevel_le (k := c.kind) (t := p.top) (a := sidesOut 1 ext (pos x))
      have := sides_le (ext := ext) (pos x)
      rw [h.size]
      omega
    obtain ⟨l, h1, h2, _⟩ := hj.queues _ _ (List.getElem?_eq_getElem hlt)
    exact ⟨_, _, h1, List.mem_append_right _ ((h2 x).2 ⟨hx, _, hg.bnd x hxn, rfl⟩)⟩

/-- all the groups join the pool -/
theorem joined {c : PoolCfg W} (hg : RowCfg ext n pos R c) {agg : List Bool} {lo hi : Nat} {Y : Nat → Prop} :
    ∀ (gs : List NSet) {p p' : Pool}, JoinedInTurn c gs p p' → PoolRow ext n pos R c agg lo hi Y p →
    (∀ t ∈ gs, ∀ x ∈ t, agg[x]? = some false ∧ (pos x 0 = lo ∨ pos x 0 + 1 = hi)) →
    PoolRow ext n pos R c agg lo hi Y p' ∧
      (∀ (k : Nat) q, p.queues[k]? = some q → ∃ l, p'.queues[k]? = some (q ++ l)) ∧
      ∀ t ∈ gs, ∀ x ∈ t, ∃ (k : Nat) (q : List Nat), p'.queues[k]? = some q ∧ x ∈ q := by
  intro gs p p' hjt
  induction hjt with
  | none => exact fun h _ => ⟨h, fun k q hq => ⟨[], by rw [List.append_nil]; exact hq⟩, fun t ht => by cases ht⟩
  | @next t gs p p1 p2 hj hrest ih =>
    intro h hx
    obtain ⟨hinv1, hext1, hin1⟩ := push_one hg h hj (hx t List.mem_cons_self)
    obtain ⟨hinv2, hext2, hin2⟩ := ih hinv1 (fun t' ht' => hx t' (List.mem_cons_of_mem _ ht'))
    refine ⟨hinv2, ?_, ?_⟩
    · intro k q hq
      obtain ⟨l, hl⟩ := hext1 k q hq
      obtain ⟨l', hl'⟩ := hext2 k _ hl
      exact ⟨l ++ l', by rw [hl', List.append_assoc]⟩
    · intro t' ht' x hxt
      rcases List.mem_cons.1 ht' with rfl | ht'
      · obtain ⟨k, q, h1, h2⟩ := hin1 x hxt
        obtain ⟨l, hl⟩ := hext2 k q h1
        exact ⟨k, _, hl, List.mem_append_left _ h2⟩
      · exact hin2 t' ht' x hxt

/-- a new pool -/
theorem started {c : PoolCfg W} (hg : RowCfg ext n pos R c) {p : Pool} (h : PoolStarted c p) :
    PoolRow ext n pos R c (List.replicate n false) 0 (ext 0) (fun y => (List.replicate n false)[y]? = some true) p ∧
    ∃ (k : Nat) (q : List Nat) (x : Nat), p.queues[k]? = some q ∧ x ∈ q ∧ (List.replicate n false)[x]? = some false := by
  obtain ⟨t, l, ht, htm, hmax, hq, hpr, hl⟩ := h.start
  rw [hg.len] at hl
  have hfalse : ∀ x < n, (List.replicate n false)[x]? = some false := by
    intro x hx
    rw [List.getElem?_replicate_of_lt hx]
  have hno : ∀ x : Nat, ¬ (List.replicate n false)[x]? = some true := by
    intro x h
    rw [List.getElem?_replicate] at h
    split at h <;> cases h
  have hn : 0 < n := by
    rw [← hg.len]
    exact List.length_pos_of_mem htm
  have hr0 := hg.grid.range 0 hn 0 (by omega)
  have ht0 : 1 ≤ t := by
    obtain ⟨x, hx, e⟩ := get hg.grid (v := 0) (by omega)
    have := hmax _ (List.mem_of_getElem? (hg.bnd x hx))
    rw [sides, if_pos e] at this
    omega
  have htlt : t < 4 := by
    obtain ⟨i, hi⟩ := List.mem_iff_getElem?.1 htm
    have hin : i < n := by rw [← hg.len]; exact (List.getElem?_eq_some_iff.1 hi).1
    rw [hg.bnd i hin] at hi
    have := sides_le (ext := ext) (pos i)
    cases hi
    omega
  have hent : ∀ (k : Nat) q x, p.queues[k]? = some q → x ∈ q → k = t ∧ c.nBnd[x]? = some t := by
    intro k q x hkq hx
    rw [hq, List.getElem?_set] at hkq
    by_cases hkt : t = k
    · subst hkt
      refine ⟨rfl, ?_⟩
      rw [if_pos rfl] at hkq
      split at hkq
      · cases hkq
        split at hx
        · exact ((hl x).1 (List.mem_of_mem_take hx)).1
        · exact ((hl x).1 hx).1
      · cases hkq
    · rw [if_neg hkt] at hkq
      exfalso
      match k, hkq with
      | 0, h => cases h; cases hx
      | 1, h => cases h; cases hx
      | 2, h => cases h; cases hx
      | 3, h => cases h; cases hx
      | k + 4, h => simp at h
  refine ⟨⟨⟨List.length_replicate, by omega, Nat.le_refl _, ?_⟩, by rw [hq]; simp, ?_, ?_, ?_, ?_, ?_, ⟨t, ht⟩⟩, ?_⟩
  · intro x hx
    exact ⟨fun _ => ⟨by omega, hg.grid.range x hx 0 (by omega)⟩, fun _ => hfalse x hx⟩
  · intro x y _ hy
    exact absurd hy (hno y)
  · intro k q x hkq hi hx
    have hxn := lt_of_agg hx List.length_replicate
    have h1 := (hent k q x hkq hi).2
    rw [hg.bnd x hxn, sides] at h1
    have h1 := Option.some.inj h1
    by_contra hc
    rw [if_neg (by omega), if_neg (by omega)] at h1
    omega
  · intro t' k q x htt htk hkq hx
    rw [ht] at htt; cases htt
    have := (hent k q x hkq hx).1
    omega
  · intro _ k q x hkq hx
    obtain ⟨rfl, h1⟩ := hent k q x hkq hx
    exact h1
  · intro _ t' x htt hx
    rw [ht] at htt; cases htt
    exact hmax _ (List.mem_of_getElem? (hg.bnd x (lt_of_agg hx List.length_replicate)))
  · obtain ⟨i, hi⟩ := List.mem_iff_getElem?.1 htm
    have hin : i < n := by rw [← hg.len]; exact (List.getElem?_eq_some_iff.1 hi).1
    have hil : i ∈ l := (hl i).2 ⟨hi, hfalse i hin⟩
    have hqt : p.queues[t]? = some (if c.onePoint then l.take 1 else l) := by
      rw [hq, List.getElem?_set_self (by simpa using htlt)]
    match l, hil with
    | a :: l', _ =>
      refine ⟨t, _, a, hqt, ?_, ((hl a).1 List.mem_cons_self).2⟩
      split
      · exact List.mem_cons_self
      · exact List.mem_cons_self

/-- the coarse cell of the cells from place `a` to before place `b` -/
def IsPart (n : Nat) (pos : Nat → Nat → Nat) (a b : Nat) (c : Nat × NSet) : Prop :=
  c.1 < n ∧ (a ≤ pos c.1 0 ∧ pos c.1 0 < b) ∧ ∀ x, x ∈ c.2 ↔ x < n ∧ a ≤ pos x 0 ∧ pos x 0 < b

/-- a group of `m` cells counted from one of the ends of a row of `L` cells, outside of `lo` to `hi` -/
def Whole (n : Nat) (pos : Nat → Nat → Nat) (m L lo hi : Nat) (c : Nat × NSet) : Prop :=
  ∃ a, ((m ∣ a ∧ a + m ≤ lo) ∨ (m ∣ L - a ∧ hi ≤ a ∧ a + m ≤ L)) ∧ IsPart n pos a (a + m) c

theorem Whole.mono {m L lo hi lo' hi' : Nat} {c : Nat × NSet} (h : Whole n pos m L lo hi c) (h1 : lo ≤ lo') (h2 : hi' ≤ hi) :
    Whole n pos m L lo' hi' c := by
  obtain ⟨a, h3, h4⟩ := h
  exact ⟨a, by omega, h4⟩

theorem chosen_free {c : PoolCfg W} {agg : List Bool} {p p1 : Pool} {s : Nat} (h : SeedChosen c agg p (some s) p1) :
    agg[s]? = some false := by
  cases h with
  | waiting _ _ _ _ _ hff => obtain ⟨_, _, _, h⟩ := hff; exact h
  | otherLevel _ _ _ _ hff =>
    rcases hff with ⟨_, _, _, h⟩ | ⟨_, h⟩
    · exact h
    · exact ((h.2 s).1 List.mem_cons_self).2

/-- the coarse cells of a run: groups of `max_card` cells from both ends, and one with fewer -/
theorem trace {E : IsoEnv W F} {Grown : NMap Nat → Nat → List Nat → Prop}
    (hg : RowCfg ext n pos (Adj E.g.rowPtr E.g.colInd) E.pool) {m : Nat} (hm : 0 < m)
    (hgrow : ∀ (agg : List Bool) (s order lo hi : Nat) (left : Bool) (S : NSet), FreeRow ext n pos agg lo hi → agg[s]? = some false →
      off left lo hi (pos s 0) = 0 → GrownCell E Grown agg s order S →
      ∀ x, x ∈ S ↔ x < n ∧ lo ≤ pos x 0 ∧ pos x 0 < hi ∧ off left lo hi (pos x 0) < m)
    {p0 : Pool} (h0 : PoolStarted E.pool p0) {cs : List (Nat × NSet)} {agg : List Bool} {p : Pool}
    (ht : IsoTrace E Grown (List.replicate n false) p0 cs agg p) :
    (∃ lo hi, (PoolRow ext n pos (Adj E.g.rowPtr E.g.colInd) E.pool agg lo hi (fun y => agg[y]? = some true) p ∧
        ((∃ y : Nat, agg[y]? = some true) ∨ ∃ (k : Nat) (q : List Nat) (x : Nat), p.queues[k]? = some q ∧ x ∈ q ∧ agg[x]? = some false)) ∧
      m ∣ lo ∧ m ∣ ext 0 - hi ∧ ∀ c ∈ cs, Whole n pos m (ext 0) lo hi c) ∨
    ((∀ x < n, agg[x]? ≠ some false) ∧ agg.length = n ∧ ∃ lo hi, lo < hi ∧ hi ≤ ext 0 ∧ hi < lo + m ∧ m ∣ lo ∧ m ∣ ext 0 - hi ∧
      ∀ c ∈ cs, Whole n pos m (ext 0) lo hi c ∨ IsPart n pos lo hi c) := by
  induction ht with
  | start =>
    obtain ⟨h1, h2⟩ := started hg h0
    exact Or.inl ⟨0, ext 0, ⟨h1, Or.inr h2⟩, Nat.dvd_zero _, by simp, fun c hc => by cases hc⟩
  | @turn cs agg agg' p p1 p2 seed order S _ hch hgr hqd hagg ih =>
    rcases ih with ⟨lo, hi, ⟨hinv, hst⟩, hlo, hhi, hcs⟩ | ⟨hno, hlen, _⟩
    swap
    · exact absurd (chosen_free hch) (hno seed (lt_of_agg (chosen_free hch) hlen))
    obtain ⟨hs, hend, hnext⟩ := pop hg hinv hst hch
    have hrow := hinv.row
    have hsn := lt_of_agg hs hrow.len
    obtain ⟨hs1, hs2⟩ := (hrow.free seed hsn).1 hs
    have hlast := hrow.last
    obtain ⟨left, hoff⟩ : ∃ left, off left lo hi (pos seed 0) = 0 := by
      rcases hend with h | h
      · exact ⟨true, by simp [off, h]⟩
      · exact ⟨false, by simp [off]; omega⟩
    have hS := hgrow agg seed order lo hi left S hrow hs hoff hgr
    have hlen' : agg'.length = n := by
      have hlen : ∀ i : Nat, agg'[i]? = none ↔ agg[i]? = none := by
        intro i
        rw [hagg i]
        by_cases hi : i ∈ S
        · rw [if_pos hi]
          have := ((hS i).1 hi).1
          rw [List.getElem?_eq_none_iff, hrow.len]
          constructor
          · intro h; cases h
          · intro h; omega
        · rw [if_neg hi]
      have h1 := hlen n
      have h2 := hlen (n - 1)
      rw [List.getElem?_eq_none_iff, List.getElem?_eq_none_iff, hrow.len] at h1 h2
      omega
    have hfree' : ∀ x < n, (agg'[x]? = some false ↔ x ∉ S ∧ lo ≤ pos x 0 ∧ pos x 0 < hi) := by
      intro x hx
      rw [hagg x]
      by_cases hxS : x ∈ S
      · rw [if_pos hxS]
        constructor
        · intro h; cases h
        · intro h; exact absurd hxS h.1
      · rw [if_neg hxS, hrow.free x hx]
        tauto
    by_cases hlt : hi < lo + m
    · -- the rest
      right
      have hSall : ∀ x, x ∈ S ↔ x < n ∧ lo ≤ pos x 0 ∧ pos x 0 < hi := by
        intro x
        rw [hS x]
        constructor
        · rintro ⟨h1, h2, h3, _⟩; exact ⟨h1, h2, h3⟩
        · rintro ⟨h1, h2, h3⟩
          refine ⟨h1, h2, h3, ?_⟩
          unfold off
          split <;> omega
      refine ⟨?_, hlen', lo, hi, by omega, hlast, hlt, hlo, hhi, ?_⟩
      · intro x hx hf
        obtain ⟨h1, h2, h3⟩ := (hfree' x hx).1 hf
        exact h1 ((hSall x).2 ⟨hx, h2, h3⟩)
      · intro c hc
        rcases List.mem_append.1 hc with hc | hc
        · exact Or.inl (hcs c hc)
        · rw [List.mem_singleton] at hc
          subst hc
          exact Or.inr ⟨hsn, ⟨hs1, hs2⟩, hSall⟩
    · -- a whole group
      left
      obtain ⟨lo', hi', a, hlo', hhi', hle', hd1, hd2, hwh, hSa, hnew⟩ : ∃ lo' hi' a, lo ≤ lo' ∧ hi' ≤ hi ∧ lo' ≤ hi' ∧ m ∣ lo' ∧
          m ∣ ext 0 - hi' ∧ ((m ∣ a ∧ a + m ≤ lo') ∨ (m ∣ ext 0 - a ∧ hi' ≤ a ∧ a + m ≤ ext 0)) ∧
          (∀ v, (lo ≤ v ∧ v < hi ∧ off left lo hi v < m) ↔ (a ≤ v ∧ v < a + m)) ∧
          ((a = lo ∧ lo' = lo + m ∧ hi' = hi) ∨ (lo' = lo ∧ hi' = a ∧ a + m = hi)) := by
        cases left
        · refine ⟨lo, hi - m, hi - m, Nat.le_refl _, by omega, by omega, hlo, ?_, Or.inr ⟨?_, Nat.le_refl _, by omega⟩, ?_, by omega⟩
          · rw [show ext 0 - (hi - m) = (ext 0 - hi) + m by omega]
            exact Nat.dvd_add hhi (Nat.dvd_refl _)
          · rw [show ext 0 - (hi - m) = (ext 0 - hi) + m by omega]
            exact Nat.dvd_add hhi (Nat.dvd_refl _)
          · intro v
            simp only [off]
            simp
            omega
        · refine ⟨lo + m, hi, lo, by omega, Nat.le_refl _, by omega, Nat.dvd_add hlo (Nat.dvd_refl _), hhi,
            Or.inl ⟨hlo, Nat.le_refl _⟩, ?_, by omega⟩
          intro v
          simp only [off]
          simp
          omega
      have hSall : ∀ x, x ∈ S ↔ x < n ∧ a ≤ pos x 0 ∧ pos x 0 < a + m := by
        intro x
        rw [hS x, ← hSa]
      have hsS : seed ∈ S := (hS seed).2 ⟨hsn, hs1, hs2, by omega⟩
      have hrow' : FreeRow ext n pos agg' lo' hi' := by
        refine ⟨hlen', hle', by omega, ?_⟩
        intro x hx
        rw [hfree' x hx, hSall x]
        omega
      have hseed' : agg'[seed]? = some true := by rw [hagg, if_pos hsS]
      have hpool := hnext agg' lo' hi' hrow' hlo' hhi' hseed'
      obtain ⟨gs, hne, hmem, hsame, hpw, hjt⟩ := hqd
      obtain ⟨hj1, hj2, hj3⟩ := joined hg gs hjt hpool (by
        intro t htg x hx
        obtain ⟨h1, h2, y, h3, h4⟩ := (hmem x).1 ⟨t, htg, hx⟩
        obtain ⟨_, hxn, hadj⟩ := (adj_iff hg.grid).1 h4
        obtain ⟨_, hy1, hy2⟩ := (hSall y).1 h3
        have hxr := (hrow.free x hxn).1 h2
        have hxf := (hfree' x hxn).2 ⟨h1, hxr⟩
        have := (hrow'.free x hxn).1 hxf
        exact ⟨hxf, by omega⟩)
      refine ⟨lo', hi', ⟨⟨hj1.row, hj1.size, ?_, hj1.good, hj1.above, hj1.lvl, hj1.freeLe, hj1.topSome⟩,
        Or.inl ⟨seed, hseed'⟩⟩, hd1, hd2, ?_⟩
      · intro x y hx hy hR
        by_cases hyS : y ∈ S
        · have hxn := lt_of_agg hx hlen'
          obtain ⟨h1, h2⟩ := (hfree' x hxn).1 hx
          obtain ⟨t, htg, hxt⟩ := (hmem x).2 ⟨h1, (hrow.free x hxn).2 h2, y, hyS, hR⟩
          exact hj3 t htg x hxt
        · rw [hagg y, if_neg hyS] at hy
          exact hj1.wait x y hx hy hR
      · intro c hc
        rcases List.mem_append.1 hc with hc | hc
        · exact (hcs c hc).mono hlo' hhi'
        · rw [List.mem_singleton] at hc
          subst hc
          exact ⟨a, hwh, hsn, ((hSall seed).1 hsS).2, hSall⟩

/-- the coarse cells when no cell is free -/
theorem groups {m L r t : Nat} (hm : 0 < m) (hr : r < m) {k : Nat} (hL : L = t * m + r + k * m) {c : Nat × NSet}
    (h : Whole n pos m L (t * m) (t * m + r) c ∨ (0 < r ∧ IsPart n pos (t * m) (t * m + r) c)) (hpos : ∀ x < n, pos x 0 < L) :
    c.1 < n ∧ ∀ x, x ∈ c.2 ↔ x < n ∧ rowGroup m r t (pos x 0) = rowGroup m r t (pos c.1 0) := by
  have hval : ∀ v, v < L → (v < t * m ∧ rowGroup m r t v = v / m ∧ v / m < t) ∨
      (t * m ≤ v ∧ v < t * m + r ∧ rowGroup m r t v = t) ∨
      (t * m + r ≤ v ∧ rowGroup m r t v = (v - (t * m + r)) / m + t + 1) := by
    intro v _
    unfold rowGroup
    by_cases h1 : v < t * m
    · left
      rw [if_pos h1]
      exact ⟨h1, rfl, (Nat.div_lt_iff_lt_mul hm).2 h1⟩
    · right
      rw [if_neg h1]
      by_cases h2 : v < t * m + r
      · left; rw [if_pos h2]; exact ⟨by omega, h2, rfl⟩
      · right; rw [if_neg h2]; exact ⟨by omega, rfl⟩
  -- the number of a group of `m` cells
  have hdiv : ∀ q v, v / m = q ↔ q * m ≤ v ∧ v < q * m + m := by
    intro q v
    rw [Nat.div_eq_iff hm]
    have : q * m + m - 1 + 1 = q * m + m := by omega
    omega
  have key : ∀ a b g, IsPart n pos a b c → (∀ v < L, (rowGroup m r t v = g ↔ a ≤ v ∧ v < b)) →
      c.1 < n ∧ ∀ x, x ∈ c.2 ↔ x < n ∧ rowGroup m r t (pos x 0) = rowGroup m r t (pos c.1 0) := by
    rintro a b g ⟨h1, h2, h3⟩ hv
    refine ⟨h1, fun x => ?_⟩
    rw [(hv _ (hpos c.1 h1)).2 h2, h3 x]
    constructor
    · rintro ⟨hx, hx'⟩; exact ⟨hx, (hv _ (hpos x hx)).2 hx'⟩
    · rintro ⟨hx, hx'⟩; exact ⟨hx, (hv _ (hpos x hx)).1 hx'⟩
  rcases h with ⟨a, ⟨⟨q, ha⟩, ha2⟩ | ⟨⟨q, ha⟩, ha2, ha3⟩, hp⟩ | ⟨hr0, hp⟩
  · refine key _ _ q hp (fun v hv => ?_)
    have ha : a = q * m := by rw [ha, Nat.mul_comm]
    have hqt : q < t := by
      have : (q + 1) * m ≤ t * m := by rw [Nat.add_mul]; omega
      have := Nat.le_of_mul_le_mul_right this hm
      omega
    rcases hval v hv with ⟨e1, e2, e3⟩ | ⟨e1, e2, e3⟩ | ⟨e1, e2⟩
    · rw [e2, hdiv, ha]
    · omega
    · rw [e2]
      generalize (v - (t * m + r)) / m = w
      omega
  · have ha : L - a = q * m := by rw [ha, Nat.mul_comm]
    have hqk : q ≤ k := by
      have : q * m ≤ k * m := by omega
      exact Nat.le_of_mul_le_mul_right this hm
    have e : q * m + (k - q) * m = k * m := by rw [← Nat.add_mul]; congr 1; omega
    have ha' : a = t * m + r + (k - q) * m := by omega
    refine key _ _ ((k - q) + t + 1) hp (fun v hv => ?_)
    rcases hval v hv with ⟨e1, e2, e3⟩ | ⟨e1, e2, e3⟩ | ⟨e1, e2⟩
    · omega
    · omega
    · rw [e2]
      have := hdiv (k - q) (v - (t * m + r))
      constructor
      · intro h
        have := this.1 (by omega)
        omega
      · intro h
        have := this.2 (by omega)
        omega
  · refine key _ _ t hp (fun v hv => ?_)
    rcases hval v hv with ⟨e1, e2, e3⟩ | ⟨e1, e2, e3⟩ | ⟨e1, e2⟩
    · omega
    · omega
    · rw [e2]
      generalize (v - (t * m + r)) / m = w
      omega

end CoMMA.Row
