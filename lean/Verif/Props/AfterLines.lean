import Verif.Props.WholeCall
/-! # C07, C41, C55: the coarse cells not made from lines, in any mode -/

set_option linter.unusedSectionVars false

namespace CoMMA

variable {W F : Type} [Num W]

theorem LinesOfCall.lineCells {g : Graph W} {a : Args W} {o : Outs} {n : Nat} {gss : List (List (List Nat))} {out : Outs}
    (h : LinesOfCall g a o n gss out) : LineCells a o out gss.flatten.length := by
  cases h with
  | off h1 h2 _ _ => exact Or.inl ⟨h1, by rw [h2]; rfl⟩
  | on ht _ hn he =>
    refine Or.inr ⟨ht.on, ?_⟩
    rw [← hn.2]
    rcases he with ⟨rfl, _, h⟩ | ⟨_, _, h⟩
    · rw [h]; rfl
    · exact h

/-- the turn of the run that makes coarse cell `k` -/
theorem MapAfterLines.turn {E : IsoEnv W F} {G : NMap Nat → Nat → List Nat → Prop} {n : Nat} {gss : List (List (List Nat))}
    {f : List Nat} (h : MapAfterLines E G n gss f) {k : Nat} (hk : k ∈ f) (hm : gss.flatten.length ≤ k) :
    ∃ agg0 p0 cs agg p seed order s p1, agg0 = (List.range n).map (fun i => decide (i ∈ gss.flatten.flatten)) ∧
      PoolAfterLines E.pool agg0 ((gss.flatten.flatten.flatMap (rowOf E.g.rowPtr E.g.colInd)).filter
        (fun x => decide (agg0[x]? = some false))) p0 ∧
      IsoTrace E G agg0 p0 cs agg p ∧ SeedChosen E.pool agg p (some seed) p1 ∧ GrownCell E G agg seed order s ∧
      (∀ i : Nat, i < n → ∃ j, f[i]? = some j ∧ agg[i]? = some (decide (j < k))) ∧ ∀ i : Nat, f[i]? = some k ↔ i ∈ s := by
  obtain ⟨agg0, p0, cs, aggF, p, h0, h1, ht, hF, hlen, hget⟩ := h
  obtain ⟨i0, hi0⟩ := List.mem_iff_getElem?.1 hk
  obtain ⟨e0, he0, _⟩ := (hget i0 k).1 hi0
  rw [List.getElem?_append_right (by rw [List.length_map]; exact hm), List.length_map, List.getElem?_map] at he0
  obtain ⟨e, he, rfl⟩ := Option.map_eq_some_iff.1 he0
  have key : ∃ agg p1 order p2, IsoTrace E G agg0 p0 (cs.take (k - gss.flatten.length)) agg p1 ∧
      SeedChosen E.pool agg p1 (some e.1) p2 ∧ GrownCell E G agg e.1 order e.2 := by
    clear hget hlen hF h1 h0 hi0 he0
    induction ht with
    | start => simp at he
    | @turn cs agg agg' p p1 p2 seed order s ht hs hg _ _ ih =>
      rcases Nat.lt_trichotomy (k - gss.flatten.length) cs.length with hj | hj | hj
      · rw [List.getElem?_append_left hj] at he
        rw [List.take_append_of_le_length (by omega)]
        exact ih he
      · rw [hj, List.getElem?_concat_length] at he
        cases he
        rw [hj, List.take_append_of_le_length (Nat.le_refl _), List.take_length]
        exact ⟨agg, p, order, p1, ht, hs, hg⟩
      · rw [List.getElem?_append_right (by omega)] at he
        have := (List.getElem?_eq_some_iff.1 he).1
        simp only [List.length_append, List.length_singleton, List.length_cons, List.length_nil] at this
        omega
  obtain ⟨agg, p1, order, p2, k1, k2, k3⟩ := key
  refine ⟨agg0, p0, _, agg, p1, e.1, order, e.2, p2, h0, h1, k1, k2, k3, ?_, ?_⟩
  · intro i hi
    obtain ⟨j, hj⟩ : ∃ j, f[i]? = some j := ⟨_, List.getElem?_eq_getElem (by rw [hlen]; exact hi)⟩
    refine ⟨j, hj, ?_⟩
    have hji := (hget i j).1 hj
    obtain ⟨t, ht1, ht2⟩ := hji
    rcases Nat.lt_or_ge j gss.flatten.length with hlt | hge
    · -- on a line
      rw [List.getElem?_append_left (by rw [List.length_map]; exact hlt), List.getElem?_map] at ht1
      obtain ⟨grp, hgrp, rfl⟩ := Option.map_eq_some_iff.1 ht1
      have hmem : i ∈ gss.flatten.flatten := List.mem_flatten.2 ⟨grp, List.mem_of_getElem? hgrp, NSet.mem_ofList.1 ht2⟩
      have h00 : agg0[i]? = some true := by
        rw [h0, List.getElem?_map, List.getElem?_range hi, Option.map_some, decide_eq_true hmem]
      rw [decide_eq_true (by omega)]
      by_cases hin : ∃ e' ∈ cs.take (k - gss.flatten.length), i ∈ e'.2
      · exact (k1.taken i).1 hin
      · rw [(k1.taken i).2 hin, h00]
    · rw [List.getElem?_append_right (by rw [List.length_map]; exact hge), List.length_map, List.getElem?_map] at ht1
      obtain ⟨e', he', rfl⟩ := Option.map_eq_some_iff.1 ht1
      by_cases hjk : j < k
      · rw [(k1.taken i).1 ⟨e', List.mem_iff_getElem?.2 ⟨j - gss.flatten.length, by
          rw [List.getElem?_take, if_pos (by omega)]; exact he'⟩, ht2⟩, decide_eq_true hjk]
      · rw [(k1.taken i).2, decide_eq_false hjk]
        · have hnm : i ∉ gss.flatten.flatten := by
            intro hmem
            obtain ⟨grp, hg1, hg2⟩ := List.mem_flatten.1 hmem
            obtain ⟨j2, hj2⟩ := List.mem_iff_getElem?.1 hg1
            have hlt2 := (List.getElem?_eq_some_iff.1 hj2).1
            have := (hget i j2).2 ⟨NSet.ofList grp, by
              rw [List.getElem?_append_left (by rw [List.length_map]; exact hlt2), List.getElem?_map, hj2]; rfl, NSet.mem_ofList.2 hg2⟩
            rw [hj] at this
            cases this
            omega
          rw [h0, List.getElem?_map, List.getElem?_range hi, Option.map_some, decide_eq_false hnm]
        · rintro ⟨e2, he2, hie2⟩
          obtain ⟨j2, hj2⟩ := List.mem_iff_getElem?.1 he2
          rw [List.getElem?_take] at hj2
          split at hj2
          · have := (hget i (gss.flatten.length + j2)).2 ⟨e2.2, by
              rw [List.getElem?_append_right (by rw [List.length_map]; omega), List.length_map, Nat.add_sub_cancel_left, List.getElem?_map, hj2]; rfl, hie2⟩
            rw [hj] at this; cases this; omega
          · cases hj2
  · intro i
    rw [hget, List.getElem?_append_right (by rw [List.length_map]; exact hm), List.length_map, List.getElem?_map, he]
    constructor
    · rintro ⟨c, hc, hi⟩; cases hc; exact hi
    · exact fun hi => ⟨e.2, rfl, hi⟩

/-- an uncorrected call in any mode -/
theorem described_plain {P : Platform} {a : Args W} {o : Outs} {n : Nat} (hm : ValidMesh a n) (hp : ValidParams P a)
    (hW : LawfulLt W) (hu : UniqueRows a.rowPtr a.colInd) (hl : NoSelfLoop a.rowPtr a.colInd)
    (hcor : a.correction = false) (hmode : ValidMode (graphOf a) a o n) :
    ∃ out c gss, agglomerateOneLevel P a o = (out, .ok ()) ∧ PoolMade P a c ∧ LineCells a o out gss.flatten.length ∧
      MapAfterLines (isoEnvOf P a c) (GrownGreedily (isoEnvOf P a c)) n gss out.fcToCc := by
  obtain ⟨c, k, p, idx, lines, gss, hd⟩ := described hm hp hW hu hl hmode
  obtain ⟨f0, h1, h2⟩ := hd.map
  rw [uncorrected_self hcor] at h1
  exact ⟨_, c, gss, h1, hd.start.made, (hd.rows f0).lineCells, h2⟩

/-- **C41** (any mode; without the claim on external faces, see `C41_counterexample`) Each coarse
cell not made from a line is grown greedily from its seed and cut at the best size, as in
`C41_greedy_partial`. -/
theorem C41_any_mode_partial {P : Platform} {a : Args W} {o : Outs} {n : Nat} (hm : ValidMesh a n) (hp : ValidParams P a)
    (hW : LawfulLt W) (hu : UniqueRows a.rowPtr a.colInd) (hl : NoSelfLoop a.rowPtr a.colInd)
    (hcor : a.correction = false) (hmode : ValidMode (graphOf a) a o n) :
    ∃ out m, agglomerateOneLevel P a o = (out, .ok ()) ∧ LineCells a o out m ∧
      ∀ k ∈ out.fcToCc, m ≤ k → ∃ E agg seed order s, CallEnv P a E ∧
        (∀ i : Nat, i < n → ∃ j, out.fcToCc[i]? = some j ∧ agg[i]? = some (decide (j < k))) ∧
        GreedyCell E agg seed order s ∧ ∀ i : Nat, out.fcToCc[i]? = some k ↔ i ∈ s := by
  obtain ⟨out, c, gss, h1, h2, h3, h4⟩ := described_plain hm hp hW hu hl hcor hmode
  refine ⟨out, _, h1, h3, fun k hk hmk => ?_⟩
  obtain ⟨_, _, _, agg, _, seed, order, s, _, _, _, _, _, g1, g2, g3⟩ := h4.turn hk hmk
  exact ⟨_, agg, seed, order, s, callEnv hp h2, g2, g1, g3⟩

/-- **C55** (any mode) Each coarse cell not made from a line is grown with the aspect ratios of
the enlarged coarse cells. -/
theorem C55_any_mode {P : Platform} {a : Args W} {o : Outs} {n : Nat} (hm : ValidMesh a n) (hp : ValidParams P a)
    (hW : LawfulLt W) (hu : UniqueRows a.rowPtr a.colInd) (hl : NoSelfLoop a.rowPtr a.colInd)
    (hF : FeatInput (graphOf a) a.aspect)
    (hcor : a.correction = false) (hmode : ValidMode (graphOf a) a o n) :
    ∃ out m, agglomerateOneLevel P a o = (out, .ok ()) ∧ LineCells a o out m ∧
      ∀ k ∈ out.fcToCc, m ≤ k → ∃ E agg seed order s, CallEnv P a E ∧
        (∀ i : Nat, i < n → ∃ j, out.fcToCc[i]? = some j ∧ agg[i]? = some (decide (j < k))) ∧
        GrownCell E (ShapedSeq E a.aspect) agg seed order s ∧ ∀ i : Nat, out.fcToCc[i]? = some k ↔ i ∈ s := by
  obtain ⟨out, c, gss, h1, h2, h3, h4⟩ := described_plain hm hp hW hu hl hcor hmode
  refine ⟨out, _, h1, h3, fun k hk hmk => ?_⟩
  obtain ⟨_, _, _, agg, _, seed, order, s, _, _, _, _, _, g1, g2, g3⟩ := (h4.shaped hm hp hF h2).turn hk hmk
  exact ⟨_, agg, seed, order, s, callEnv hp h2, g2, g1, g3⟩

/-! ## Boundary priority -/

/-- with boundary priority: no free cell has more boundary faces than the level in use, and the
free cells waiting on a level have at least as many -/
structure TopCovers (c : PoolCfg W) (agg : List Bool) (p : Pool) : Prop where
  top : ∃ t, p.top = some t ∧ ∀ (i : Nat) b, c.nBnd[i]? = some b → agg[i]? = some false → b ≤ t
  wait : ∀ (k : Nat) q, p.queues[k]? = some q → ∀ x ∈ q, agg[x]? = some false → ∃ b, c.nBnd[x]? = some b ∧ k ≤ b

theorem TopCovers.shrink {c : PoolCfg W} {agg agg' : List Bool} {p : Pool} (h : TopCovers c agg p)
    (hs : ∀ i : Nat, agg'[i]? = some false → agg[i]? = some false) : TopCovers c agg' p := by
  obtain ⟨t, h1, h2⟩ := h.top
  exact ⟨⟨t, h1, fun i b hb hi => h2 i b hb (hs i hi)⟩, fun k q hq x hx hf => h.wait k q hq x hx (hs x hf)⟩

theorem getElem?_of_len {α : Type} {l l' : List α} {k : Nat} {x : α} (hl : l'.length = l.length) (h : l'[k]? = some x) :
    ∃ y, l[k]? = some y :=
  ⟨_, List.getElem?_eq_getElem (by rw [← hl]; exact (List.getElem?_eq_some_iff.1 h).1)⟩

theorem TopCovers.joined {c : PoolCfg W} (hk : c.kind = .boundary) {agg : List Bool} {p p' : Pool} {s : NSet}
    (h : TopCovers c agg p) (hj : SeedsJoined c s p p') : TopCovers c agg p' := by
  obtain ⟨t0, g1, g2⟩ := h.top
  constructor
  · by_cases hne : ∃ x, x ∈ s
    · obtain ⟨t, h1, h2, h3, h4⟩ := hj.raise hk hne
      exact ⟨t, h1, fun i b hb hi => Nat.le_trans (g2 i b hb hi) (h2 t0 g1)⟩
    · rw [hj.keep (Or.inr (fun x hx => hne ⟨x, hx⟩))]
      exact ⟨t0, g1, g2⟩
  · intro k q' hq' x hx hf
    obtain ⟨q, hq⟩ := getElem?_of_len hj.size hq'
    obtain ⟨l, hl1, hl2, _⟩ := hj.queues k q hq
    rw [hl1] at hq'
    cases hq'
    rcases List.mem_append.1 hx with hx | hx
    · exact h.wait k q hq x hx hf
    · obtain ⟨_, b, hb, hkb⟩ := (hl2 x).1 hx
      rw [hk] at hkb
      exact ⟨b, hb, Nat.le_of_eq hkb.symm⟩

theorem TopCovers.joinedInTurn {c : PoolCfg W} (hk : c.kind = .boundary) {agg : List Bool} {gs : List NSet} {p p' : Pool}
    (hj : JoinedInTurn c gs p p') : TopCovers c agg p → TopCovers c agg p' := by
  induction hj with
  | none => exact id
  | next h1 _ ih => exact fun h => ih (h.joined hk h1)

theorem TopCovers.chosen {c : PoolCfg W} (hk : c.kind = .boundary) {agg : List Bool} {p p' : Pool} {s : Nat}
    (h : TopCovers c agg p) (hs : SeedChosen c agg p (some s) p') : TopCovers c agg p' ∧
      ∃ bs, c.nBnd[s]? = some bs ∧ agg[s]? = some false ∧ ∀ (i : Nat) b, c.nBnd[i]? = some b → agg[i]? = some false → b ≤ bs := by
  obtain ⟨t0, g1, g2⟩ := h.top
  cases hs with
  | @waiting t k _ q rest _ h1 h2 h3 h4 h5 h6 h7 h8 h9 =>
    rw [g1] at h1
    cases h1
    rw [hk] at h2
    have hkt : k = t0 := Nat.le_antisymm h3 h2
    subst hkt
    obtain ⟨pre, hq, _, hfree⟩ := h6
    obtain ⟨b, hb, hkb⟩ := h.wait k q h5 s (by rw [hq]; simp) hfree
    refine ⟨⟨⟨k, h7, g2⟩, ?_⟩, b, hb, hfree, fun i b' hb' hi => Nat.le_trans (g2 i b' hb' hi) hkb⟩
    intro j q' hq' x hx hf
    obtain ⟨r, hr⟩ := getElem?_of_len h8 hq'
    rw [h9 j r hr] at hq'
    cases hq'
    by_cases hjk : j = k
    · subst hjk
      rw [if_pos rfl] at hx
      rw [h5] at hr
      cases hr
      exact h.wait j _ h5 x (by rw [hq]; simp [hx]) hf
    · rw [if_neg hjk] at hx
      split at hx
      · cases hx
      · exact h.wait j r hr x hx hf
  | @otherLevel t cur _ q rest _ h1 h2 h3 h4 h5 h6 h7 h8 =>
    rw [g1] at h1
    cases h1
    have hmax : ∀ (i : Nat) b, c.nBnd[i]? = some b → agg[i]? = some false → b ≤ cur := by
      rcases h3 with ⟨_, _, _, hle, _⟩ | ⟨_, _, hmax⟩
      · exact fun i b hb hi => Nat.le_trans (g2 i b hb hi) hle
      · exact hmax
    have hsr : ∀ x, x = s ∨ x ∈ rest → agg[x]? = some false → ∃ b, c.nBnd[x]? = some b ∧ cur ≤ b := by
      rcases h5 with ⟨pre, hq, _, _⟩ | ⟨_, _, hfl⟩
      · intro x hx hf
        exact h.wait cur q h4 x (by rw [hq]; rcases hx with hx | hx <;> simp [hx]) hf
      · intro x hx hf
        exact ⟨cur, ((hfl x).1 (by rcases hx with hx | hx <;> simp [hx])).1, Nat.le_refl _⟩
    have hfree : agg[s]? = some false := by
      rcases h5 with ⟨pre, _, _, hf⟩ | ⟨_, _, hfl⟩
      · exact hf
      · exact ((hfl s).1 (by simp)).2
    obtain ⟨b, hb, hkb⟩ := hsr s (Or.inl rfl) hfree
    refine ⟨⟨⟨cur, h6, hmax⟩, ?_⟩, b, hb, hfree, fun i b' hb' hi => Nat.le_trans (hmax i b' hb' hi) hkb⟩
    intro j q' hq' x hx hf
    obtain ⟨r, hr⟩ := getElem?_of_len h7 hq'
    rw [h8 j r hr] at hq'
    cases hq'
    by_cases hjk : j = cur
    · subst hjk
      rw [if_pos rfl] at hx
      exact hsr x (Or.inr hx) hf
    · rw [if_neg hjk] at hx
      split at hx
      · cases hx
      · exact h.wait j r hr x hx hf

theorem wait_waitOn {c : PoolCfg W} (hk : c.kind = .boundary) {t : Nat} {w : List Nat} {k : Nat} {q : List Nat}
    (hq : ((List.range 4).map (waitOn c t w))[k]? = some q) {x : Nat} (hx : x ∈ q) : ∃ b, c.nBnd[x]? = some b ∧ k ≤ b := by
  rw [List.getElem?_map] at hq
  obtain ⟨k', hk', rfl⟩ := Option.map_eq_some_iff.1 hq
  obtain rfl : k' = k := by
    obtain ⟨hlt, he⟩ := List.getElem?_eq_some_iff.1 hk'
    rw [← he, List.getElem_range]
  have := of_decide_eq_true (List.mem_filter.1 hx).2
  obtain ⟨b, hb, he⟩ := Option.map_eq_some_iff.1 this
  rw [hk] at he
  exact ⟨b, hb, Nat.le_of_eq he.symm⟩

theorem TopCovers.afterLines {c : PoolCfg W} (hk : c.kind = .boundary) {agg : List Bool} {w : List Nat} {p : Pool}
    (h : PoolAfterLines c agg w p) : TopCovers c agg p := by
  have hset : ∀ {qs : List (List Nat)} {m : Nat} {l : List Nat},
      (∀ (k : Nat) q, qs[k]? = some q → ∀ x ∈ q, ∃ b, c.nBnd[x]? = some b ∧ k ≤ b) →
      (∀ x ∈ l, ∃ b, c.nBnd[x]? = some b ∧ m ≤ b) →
      ∀ (k : Nat) q, (qs.set m (if c.onePoint then l.take 1 else l))[k]? = some q → ∀ x ∈ q, ∃ b, c.nBnd[x]? = some b ∧ k ≤ b := by
    intro qs m l h1 h2 k q hq x hx
    rw [List.getElem?_set] at hq
    split at hq
    · rename_i hmk
      subst hmk
      split at hq
      · cases hq
        split at hx
        · exact h2 x (List.mem_of_mem_take hx)
        · exact h2 x hx
      · cases hq
    · exact h1 k q hq x hx
  cases h with
  | fresh _ hs =>
    obtain ⟨t, l, h1, _, h3, h4, _, h5⟩ := hs.start
    refine ⟨⟨t, h1, fun i b hb _ => h3 b (List.mem_of_getElem? hb)⟩, fun k q hq x hx _ => ?_⟩
    rw [h4] at hq
    refine hset ?_ ?_ k q hq x hx
    · intro k q hq x hx
      have : q = [] := by
        have := List.mem_of_getElem? hq
        simp at this
        exact this
      rw [this] at hx
      cases hx
    · intro x hx
      exact ⟨t, ((h5 x).1 hx).1, Nat.le_refl _⟩
  | near h1 => rw [hk] at h1; cases h1
  | @level x t _ h2 h3 h4 h5 h6 =>
    refine ⟨⟨t, h5, h4⟩, fun k q hq x hx _ => ?_⟩
    rw [h6] at hq
    exact wait_waitOn hk hq hx
  | @higher i m l _ h2 h3 h4 h5 h6 h7 h8 h9 =>
    refine ⟨⟨m, h8, h5⟩, fun k q hq x hx _ => ?_⟩
    rw [h9] at hq
    exact hset (fun k q hq x hx => wait_waitOn hk hq hx) (fun x hx => (h7.2 x).1 hx) k q hq x hx

theorem TopCovers.trace {E : IsoEnv W F} (hk : E.pool.kind = .boundary) {G : NMap Nat → Nat → List Nat → Prop}
    {agg0 agg : List Bool} {p0 p : Pool} {cs : List (Nat × NSet)} (h : IsoTrace E G agg0 p0 cs agg p)
    (h0 : TopCovers E.pool agg0 p0) : TopCovers E.pool agg p := by
  induction h with
  | start => exact h0
  | turn _ hs _ hq ha ih =>
    obtain ⟨gs, _, _, _, _, hj⟩ := hq
    refine (TopCovers.joinedInTurn hk hj (ih.chosen hk hs).1).shrink (fun i hi => ?_)
    rw [ha i] at hi
    split at hi
    · cases hi
    · exact hi

theorem GrownCell.seed_mem {E : IsoEnv W F} {G : NMap Nat → Nat → List Nat → Prop} {agg : List Bool} {seed order : Nat}
    {s : NSet} (h : GrownCell E G agg seed order s) (hmin : 0 < E.minCard) : seed ∈ s := by
  obtain ⟨d, _, _, _, h1, h2⟩ := h
  by_cases hd : d.size + 1 < E.goalCard
  · exact (h1 hd seed).2 (Or.inl rfl)
  · obtain ⟨xs, κ, m, _, hx, _, _, _, hb, rfl⟩ := h2 (by omega)
    obtain ⟨ys, rfl⟩ := List.head?_eq_some_iff.1 hx
    obtain ⟨m', rfl⟩ : ∃ m', m = m' + 1 := ⟨m - 1, by have := hb.1; omega⟩
    exact NSet.mem_ofList.2 (by simp)

/-- **C07** (any mode) With a boundary-priority order and no correction, each coarse cell not made
from a line contains a cell (its seed) with at least as many boundary faces (counted up to the
dimension) as every cell of its coarse cell and of the coarse cells with larger numbers. -/
theorem C07_call {P : Platform} {a : Args W} {o : Outs} {n : Nat} (hm : ValidMesh a n) (hp : ValidParams P a)
    (hW : LawfulLt W) (hu : UniqueRows a.rowPtr a.colInd) (hl : NoSelfLoop a.rowPtr a.colInd)
    (hcor : a.correction = false) (hmode : ValidMode (graphOf a) a o n)
    (hord : a.order = .boundary ∨ a.order = .boundaryOnePoint) :
    ∃ out m, agglomerateOneLevel P a o = (out, .ok ()) ∧ LineCells a o out m ∧
      ∀ k ∈ out.fcToCc, m ≤ k → ∃ i b : Nat, out.fcToCc[i]? = some k ∧ a.nBnd[i]? = some b ∧
        ∀ j k' b' : Nat, out.fcToCc[j]? = some k' → k ≤ k' → a.nBnd[j]? = some b' →
          min (b' : Int) a.dim ≤ min (b : Int) a.dim := by
  obtain ⟨out, c, gss, h1, h2, h3, h4⟩ := described_plain hm hp hW hu hl hcor hmode
  have hE := callEnv hp h2
  have hk := hE.kind.2 hord
  refine ⟨out, _, h1, h3, fun k hkf hmk => ?_⟩
  obtain ⟨_, _, cs, agg, p, seed, order, s, _, _, ha, ht, hs, hg, g2, g3⟩ := h4.turn hkf hmk
  obtain ⟨_, bs, hb, hfree, hmax⟩ := (TopCovers.trace hk ht (TopCovers.afterLines hk ha)).chosen hk hs
  rw [hE.poolBnd, hE.nBnd] at hb hmax
  rw [List.getElem?_map] at hb
  obtain ⟨b, hbs, rfl⟩ := Option.map_eq_some_iff.1 hb
  refine ⟨seed, b, (g3 seed).2 (hg.seed_mem (by have := hE.minCard; have := hp.minCard; omega)), hbs, fun j k' b' hj hkk hb' => ?_⟩
  have hjn : j < n := by
    rw [← hm.bnd]
    exact (List.getElem?_eq_some_iff.1 hb').1
  obtain ⟨k2, e1, e2⟩ := g2 j hjn
  rw [hj] at e1
  cases e1
  rw [decide_eq_false (by omega)] at e2
  have h5 : min b' (isoEnvOf P a c).g.dim ≤ min b (isoEnvOf P a c).g.dim :=
    hmax j _ (by rw [List.getElem?_map, hb']; rfl) e2
  have h6 := hE.dim
  omega

/-! ### Concrete cases -/

/-- five cells in a row, boundary priority, no correction -/
def exRow5 : Args Int :=
  { exArgs3 with
    rowPtr := [0, 1, 3, 5, 7, 8], colInd := [1, 0, 2, 1, 3, 2, 4, 3], values := [1, 1, 1, 1, 1, 1, 1, 1],
    volumes := [1, 1, 1, 1, 1], centers := [[0, 0], [1, 0], [2, 0], [3, 0], [4, 0]], prio := [5, 4, 3, 2, 1],
    nBnd := [3, 2, 1, 1, 3], order := .boundary, isAniso := true, correction := false }

def exRow5Outs : Outs := ⟨[], [0, 2], [0, 1]⟩

theorem exRow5_crs : ValidCRS 5 exRow5.rowPtr exRow5.colInd := checkCRS_sound (by decide)

theorem exRow5_valid : ValidMesh exRow5 5 where
  pos := by decide
  crs := exRow5_crs
  sym := checkSym_sound exRow5_crs (by decide)
  uniq := Or.inl (checkUniq_sound exRow5_crs (by decide))
  values := rfl
  volumes := rfl
  centers := rfl
  prio := rfl
  bnd := rfl
  coords := ⟨2, by decide⟩

theorem exRow5_params : ValidParams exPlatform exRow5 where
  dim := by decide
  minCard := by decide
  goalCard := by decide
  maxCard := by decide
  iter := by decide
  thresh := by decide
  order := by decide
  aspect := by decide
  onePoint := by decide

theorem exRow5_mode : ValidMode (graphOf exRow5) exRow5 exRow5Outs 5 :=
  ⟨Or.inr (Or.inr ⟨[[0, 1]], ⟨rfl, rfl, ⟨rfl, rfl⟩, by decide, by decide, by decide⟩⟩), fun _ _ => by intro l _ m h; cases h⟩

theorem exRow5_input : FeatInput (graphOf exRow5) exRow5.aspect where
  crs := exRow5_crs
  sizes := ⟨rfl, rfl, rfl, rfl, 2, by decide⟩
  sym := exRow5_valid.sym
  add := exCommAdd
  weights _ := ⟨exExact, symWeights_of exRow5_crs rfl (by decide), checkNoLoop_sound exRow5_crs (by decide)⟩
  geom _ := ⟨exLawful, exSymm⟩
  bary _ := ⟨exLawful, exSymm⟩
  facets h := absurd h (by decide)

/-- cells 0 and 1 are a line; then the seed is cell 4, at the other end, although cell 2 is next to the line -/
example : agglomerateOneLevel exPlatform exRow5 exRow5Outs = (⟨[0, 0, 2, 1, 1], [0, 1], [0]⟩, .ok ()) := by decide +kernel

example := C41_any_mode_partial (o := exRow5Outs) exRow5_valid exRow5_params exLawful
  (checkUniq_sound exRow5_crs (by decide)) (checkNoLoop_sound exRow5_crs (by decide)) rfl exRow5_mode

example := C55_any_mode (o := exRow5Outs) exRow5_valid exRow5_params exLawful
  (checkUniq_sound exRow5_crs (by decide)) (checkNoLoop_sound exRow5_crs (by decide))
  exRow5_input rfl exRow5_mode

example := C07_call (o := exRow5Outs) exRow5_valid exRow5_params exLawful
  (checkUniq_sound exRow5_crs (by decide)) (checkNoLoop_sound exRow5_crs (by decide)) rfl exRow5_mode (by decide)

end CoMMA
