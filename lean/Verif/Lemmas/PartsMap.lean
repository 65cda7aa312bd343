import Verif.Lemmas.PartsRun
import Verif.Spec.Parts
/-! # Two agglomerations that share a part of the mesh: start, numbering and correction -/

set_option linter.unusedSectionVars false

namespace CoMMA

variable {W F : Type} [Num W] {K : Nat → Prop}

/-! ### The pool at the beginning -/

open Classical in
theorem PoolAfterLines.onPart {c : PoolCfg W} (hk : c.kind = .boundary) (h1p : c.onePoint = false) (hle : ∀ b ∈ c.nBnd, b ≤ 3)
    {agg : List Bool} {w : List Nat} {p : Pool}
    (h : PoolAfterLines c agg w p) : PoolInv c agg p ∧ ∀ k, k < 4 →
      partQ K agg p k = w.filter (fun x => decide (c.nBnd[x]? = some k ∧ agg[x]? = some false ∧ K x)) ∨
      (PartBound K c agg k ∧ PartLevel K c agg k (partQ K agg p k) ∧
        w.filter (fun x => decide (c.nBnd[x]? = some k ∧ agg[x]? = some false ∧ K x)) = []) := by
  have hwait : ∀ t k, (waitOn c t w k).filter (fun x => decide (agg[x]? = some false)) =
      w.filter (fun x => decide (c.nBnd[x]? = some k ∧ agg[x]? = some false)) := by
    intro t k
    unfold waitOn
    rw [List.filter_filter]
    refine List.filter_congr (fun x _ => ?_)
    rw [hk, Bool.eq_iff_iff]
    simp only [Bool.and_eq_true, decide_eq_true_iff]
    rw [and_comm]
    refine and_congr_left (fun _ => ?_)
    cases c.nBnd[x]? with
    | none => simp
    | some b => simp [seedLevel]
  have hwaitK : ∀ t k, ((waitOn c t w k).filter (fun x => decide (agg[x]? = some false))).filter (fun x => decide (K x)) =
      w.filter (fun x => decide (c.nBnd[x]? = some k ∧ agg[x]? = some false ∧ K x)) := by
    intro t k
    rw [hwait, List.filter_filter]
    refine List.filter_congr (fun x _ => ?_)
    rw [Bool.eq_iff_iff]
    simp only [Bool.and_eq_true, decide_eq_true_iff]
    tauto
  cases h with
  | fresh hw hs =>
    obtain ⟨t, l, g1, g2, g3, g4, g5⟩ := hs.start
    rw [h1p] at g4
    simp only [Bool.false_eq_true, if_false] at g4
    have ht : t < 4 := by have := hle t g2; omega
    have hq : ∀ k, k < 4 → freeQ agg p k = if k = t then l.filter (fun x => decide (agg[x]? = some false)) else [] := by
      intro k hk4
      unfold freeQ
      rw [g4, List.getElem?_set]
      by_cases hkt : t = k
      · rw [if_pos hkt, if_pos (by simpa using ht), if_pos hkt.symm, Option.getD_some]
      · rw [if_neg hkt, if_neg (fun e => hkt e.symm)]
        match k, hk4 with
        | 0, _ => rfl
        | 1, _ => rfl
        | 2, _ => rfl
        | 3, _ => rfl
    have hlev : ∀ x, x ∈ l.filter (fun x => decide (agg[x]? = some false)) ↔ c.nBnd[x]? = some t ∧ agg[x]? = some false := by
      intro x
      rw [List.mem_filter, g5.2, decide_eq_true_iff]
      constructor
      · rintro ⟨⟨a, _⟩, b⟩; exact ⟨a, b⟩
      · rintro ⟨a, b⟩
        refine ⟨⟨a, ?_⟩, b⟩
        rw [List.getElem?_replicate, if_pos (List.getElem?_eq_some_iff.1 a).1]
    have hsize : p.queues.length = 4 := by rw [g4, List.length_set]; rfl
    refine ⟨⟨?_, ?_, hsize⟩, fun k hk4 => ?_⟩
    · intro i b hb _
      exact ⟨t, g1, g3 b (List.mem_of_getElem? hb)⟩
    · intro k x hx
      obtain ⟨⟨q, hq', _⟩, _⟩ := mem_freeQ.1 hx
      have hk4 : k < 4 := by rw [← hsize]; exact (List.getElem?_eq_some_iff.1 hq').1
      rw [hq k hk4] at hx
      by_cases hkt : k = t
      · rw [if_pos hkt] at hx
        rw [hkt]
        exact ((hlev x).1 hx).1
      · rw [if_neg hkt] at hx; cases hx
    · have hw' : w.filter (fun x => decide (c.nBnd[x]? = some k ∧ agg[x]? = some false ∧ K x)) = [] := by rw [hw]; rfl
      by_cases hkt : k = t
      · right
        refine ⟨fun i b _ hb _ => by rw [hkt]; exact g3 b (List.mem_of_getElem? hb), ?_, hw'⟩
        unfold partQ
        rw [hq k hk4, if_pos hkt, hkt]
        exact FreeOfLevel.onPart ⟨List.Pairwise.filter _ g5.1, hlev⟩
      · left
        unfold partQ
        rw [hw', hq k hk4, if_neg hkt]
        rfl
  | near h1 => rw [hk] at h1; cases h1
  | @level x t h1 h2 h3 h4 h5 h6 =>
    have hsize : p.queues.length = 4 := by rw [h6]; simp
    have hq : ∀ k, k < 4 → freeQ agg p k = w.filter (fun x => decide (c.nBnd[x]? = some k ∧ agg[x]? = some false)) := by
      intro k hk4
      unfold freeQ
      rw [h6, List.getElem?_map, List.getElem?_range hk4, Option.map_some, Option.getD_some, hwait]
    refine ⟨⟨?_, ?_, hsize⟩, fun k hk4 => Or.inl ?_⟩
    · intro i b hb ha
      exact ⟨t, h5, h4 i b hb ha⟩
    · intro k y hy
      obtain ⟨⟨q, hq', _⟩, _⟩ := mem_freeQ.1 hy
      have hk4 : k < 4 := by rw [← hsize]; exact (List.getElem?_eq_some_iff.1 hq').1
      rw [hq k hk4, List.mem_filter, decide_eq_true_iff] at hy
      exact hy.2.1
    · unfold partQ freeQ
      rw [h6, List.getElem?_map, List.getElem?_range hk4, Option.map_some, Option.getD_some, hwaitK]
  | @higher i m l h1 h2 h3 h4 h5 h6 h7 h8 h9 =>
    rw [h1p] at h9
    simp only [Bool.false_eq_true, if_false] at h9
    have hm : m < 4 := by have := hle m (List.mem_of_getElem? h3); omega
    have hsize : p.queues.length = 4 := by rw [h9]; simp
    have hget : ∀ k, k < 4 → p.queues[k]? = some (if k = m then l else waitOn c m w k) := by
      intro k hk4
      rw [h9, List.getElem?_set]
      by_cases hkm : m = k
      · rw [if_pos hkm, if_pos (by simpa using hm), if_pos hkm.symm]
      · rw [if_neg hkm, if_neg (fun e => hkm e.symm), List.getElem?_map, List.getElem?_range hk4, Option.map_some]
    have hlev : ∀ x, x ∈ l.filter (fun x => decide (agg[x]? = some false)) ↔ c.nBnd[x]? = some m ∧ agg[x]? = some false := by
      intro x
      rw [List.mem_filter, h7.2, decide_eq_true_iff]
      constructor
      · rintro ⟨⟨b, a, a'⟩, hf⟩
        have := h5 x b a hf
        exact ⟨by rw [a, show b = m by omega], hf⟩
      · rintro ⟨a, b⟩; exact ⟨⟨m, a, Nat.le_refl _⟩, b⟩
    refine ⟨⟨?_, ?_, hsize⟩, fun k hk4 => ?_⟩
    · intro j b hb ha
      exact ⟨m, h8, h5 j b hb ha⟩
    · intro k y hy
      have hy' := hy
      obtain ⟨⟨q, hq', _⟩, _⟩ := mem_freeQ.1 hy
      have hk4 : k < 4 := by rw [← hsize]; exact (List.getElem?_eq_some_iff.1 hq').1
      unfold freeQ at hy'
      rw [hget k hk4, Option.getD_some] at hy'
      by_cases hkm : k = m
      · rw [if_pos hkm] at hy'
        rw [hkm]
        exact ((hlev y).1 hy').1
      · rw [if_neg hkm, hwait, List.mem_filter, decide_eq_true_iff] at hy'
        exact hy'.2.1
    · by_cases hkm : k = m
      · right
        refine ⟨fun j b _ hb ha => by rw [hkm]; exact h5 j b hb ha, ?_, ?_⟩
        · unfold partQ freeQ
          rw [hget k hk4, Option.getD_some, if_pos hkm, hkm]
          exact FreeOfLevel.onPart ⟨List.Pairwise.filter _ h7.1, hlev⟩
        · rw [List.filter_eq_nil_iff]
          intro x hx hc
          rw [decide_eq_true_iff, hkm] at hc
          have := h6 x hx m hc.1
          omega
      · left
        unfold partQ freeQ
        rw [hget k hk4, Option.getD_some, if_neg hkm, hwaitK]

open Classical in
/-- the two runs begin in the same way on `K` -/
theorem SameOnPart.begin {E E' : IsoEnv W F} (h : PartRuns K E E') (h1 : E.pool.onePoint = false) (h1' : E'.pool.onePoint = false)
    (hle : ∀ b ∈ E.pool.nBnd, b ≤ 3) (hle' : ∀ b ∈ E'.pool.nBnd, b ≤ 3) {agg agg' : List Bool} {w w' : List Nat} {p p' : Pool}
    (ha : SameFlags K agg agg')
    (hw : w.filter (fun x => decide (K x)) = w'.filter (fun x => decide (K x)))
    (hp : PoolAfterLines E.pool agg w p) (hp' : PoolAfterLines E'.pool agg' w' p') :
    PoolInv E.pool agg p ∧ PoolInv E'.pool agg' p' ∧ SameOnPart K E.pool agg p agg' p' := by
  obtain ⟨i1, q1⟩ := hp.onPart (K := K) h.kind h1 hle
  obtain ⟨i2, q2⟩ := hp'.onPart (K := K) h.kind' h1' hle'
  refine ⟨i1, i2, ha, fun k hk => ?_⟩
  have hww : w.filter (fun x => decide (E.pool.nBnd[x]? = some k ∧ agg[x]? = some false ∧ K x)) =
      w'.filter (fun x => decide (E'.pool.nBnd[x]? = some k ∧ agg'[x]? = some false ∧ K x)) := by
    have e1 : w.filter (fun x => decide (E.pool.nBnd[x]? = some k ∧ agg[x]? = some false ∧ K x)) =
        (w.filter (fun x => decide (K x))).filter (fun x => decide (E.pool.nBnd[x]? = some k ∧ agg[x]? = some false)) := by
      rw [List.filter_filter]
      refine List.filter_congr (fun x _ => ?_)
      rw [Bool.eq_iff_iff]
      simp only [Bool.and_eq_true, decide_eq_true_iff]
      tauto
    have e2 : w'.filter (fun x => decide (E'.pool.nBnd[x]? = some k ∧ agg'[x]? = some false ∧ K x)) =
        (w'.filter (fun x => decide (K x))).filter (fun x => decide (E.pool.nBnd[x]? = some k ∧ agg[x]? = some false)) := by
      rw [List.filter_filter]
      refine List.filter_congr (fun x _ => ?_)
      rw [Bool.eq_iff_iff]
      simp only [Bool.and_eq_true, decide_eq_true_iff]
      by_cases hx : K x
      · rw [h.env.poolBnd x hx, ha x hx]; tauto
      · tauto
    rw [e1, e2, hw]
  have hL : ∀ {l}, PartLevel K E'.pool agg' k l → PartLevel K E.pool agg k l := fun g => g.part h.env.symm ha.symm
  rcases q1 k hk with g | ⟨g1, g2, g3⟩
  · rcases q2 k hk with g' | ⟨g1', g2', g3'⟩
    · left; rw [g, g', hww]
    · right
      refine ⟨g1'.part h.env.symm ha.symm, Or.inl (by rw [g, hww, g3']), Or.inr (hL g2')⟩
  · rcases q2 k hk with g' | ⟨_, g2', _⟩
    · exact Or.inr ⟨g1, Or.inr g2, Or.inl (by rw [g', ← hww, g3])⟩
    · exact Or.inr ⟨g1, Or.inr g2, Or.inr (hL g2')⟩

/-! ### The numbering -/

/-- on `K` the maps `f` and `f'` put the cells into the same coarse cells, numbered in the same
order; the coarse cells made from lines are those below `m` and `m'` -/
structure SameMap (K : Nat → Prop) (m m' : Nat) (f f' : List Nat) : Prop where
  there : ∀ i : Nat, K i → (∃ k, f[i]? = some k) ∧ ∃ k, f'[i]? = some k
  order : ∀ i j, K i → K j → (NumberedBefore f i j ↔ NumberedBefore f' i j)
  apart : ∀ (i j : Nat) k, K i → f[i]? = some k → f[j]? = some k → K j
  apart' : ∀ (i j : Nat) k, K i → f'[i]? = some k → f'[j]? = some k → K j
  lines : ∀ (i : Nat) k k', K i → f[i]? = some k → f'[i]? = some k' → (m ≤ k ↔ m' ≤ k')

theorem SameMap.symm {m m' : Nat} {f f' : List Nat} (h : SameMap K m m' f f') : SameMap K m' m f' f :=
  ⟨fun i hi => (h.there i hi).symm, fun i j hi hj => (h.order i j hi hj).symm, h.apart', h.apart,
    fun i k k' hi h1 h2 => (h.lines i k' k hi h2 h1).symm⟩

theorem SameMap.lt_iff {m m' : Nat} {f f' : List Nat} (h : SameMap K m m' f f') {i j k l k' l' : Nat} (hi : K i) (hj : K j)
    (h1 : f[i]? = some k) (h2 : f[j]? = some l) (h3 : f'[i]? = some k') (h4 : f'[j]? = some l') : k < l ↔ k' < l' := by
  have := h.order i j hi hj
  unfold NumberedBefore at this
  simpa [h1, h2, h3, h4] using this

theorem SameMap.eq_iff {m m' : Nat} {f f' : List Nat} (h : SameMap K m m' f f') {i j k l k' l' : Nat} (hi : K i) (hj : K j)
    (h1 : f[i]? = some k) (h2 : f[j]? = some l) (h3 : f'[i]? = some k') (h4 : f'[j]? = some l') : k = l ↔ k' = l' := by
  have e1 := h.lt_iff hi hj h1 h2 h3 h4
  have e2 := h.lt_iff hj hi h2 h1 h4 h3
  omega

theorem SameMap.le_iff {m m' : Nat} {f f' : List Nat} (h : SameMap K m m' f f') {i j k l k' l' : Nat} (hi : K i) (hj : K j)
    (h1 : f[i]? = some k) (h2 : f[j]? = some l) (h3 : f'[i]? = some k') (h4 : f'[j]? = some l') : k ≤ l ↔ k' ≤ l' := by
  have e2 := h.lt_iff hj hi h2 h1 h4 h3
  omega

open Classical in
/-- the coarse cells that have a cell in `K` -/
noncomputable def cellsIn (K : Nat → Prop) (C : List NSet) : List NSet := C.filter (fun c => decide (∃ x ∈ c, K x))

theorem mem_cellsIn {C : List NSet} {c : NSet} : c ∈ cellsIn K C ↔ c ∈ C ∧ ∃ x ∈ c, K x := by
  classical
  unfold cellsIn
  rw [List.mem_filter, decide_eq_true_iff]

theorem cellsIn_append {C D : List NSet} : cellsIn K (C ++ D) = cellsIn K C ++ cellsIn K D := by
  classical
  unfold cellsIn
  rw [List.filter_append]

theorem numberedBefore_iff {n : Nat} {C : List NSet} {f : List Nat} (hf : Numbers n C f) {i j : Nat} (hi : K i) (hj : K j) :
    NumberedBefore f i j ↔ ∃ A B, cellsIn K C = A ++ B ∧ (∃ c ∈ A, i ∈ c) ∧ ∃ c ∈ B, j ∈ c := by
  classical
  constructor
  · rintro ⟨k, l, h1, h2, h3⟩
    obtain ⟨c, c1, c2⟩ := (hf.2 i k).1 h1
    obtain ⟨d, d1, d2⟩ := (hf.2 j l).1 h2
    refine ⟨cellsIn K (C.take l), cellsIn K (C.drop l), by rw [← cellsIn_append, List.take_append_drop], ⟨c, ?_, c2⟩, ⟨d, ?_, d2⟩⟩
    · refine mem_cellsIn.2 ⟨?_, i, c2, hi⟩
      exact List.mem_of_getElem? (i := k) (by rw [List.getElem?_take_of_lt h3]; exact c1)
    · refine mem_cellsIn.2 ⟨?_, j, d2, hj⟩
      exact List.mem_of_getElem? (i := 0) (by rw [List.getElem?_drop]; exact d1)
  · rintro ⟨A, B, h1, ⟨c, c1, c2⟩, ⟨d, d1, d2⟩⟩
    unfold cellsIn at h1
    obtain ⟨C1, C2, rfl, rfl, rfl⟩ := List.filter_eq_append_iff.1 h1
    obtain ⟨k, hk⟩ := List.mem_iff_getElem?.1 (List.mem_of_mem_filter c1)
    obtain ⟨l, hl⟩ := List.mem_iff_getElem?.1 (List.mem_of_mem_filter d1)
    have hk' := (List.getElem?_eq_some_iff.1 hk).1
    refine ⟨k, C1.length + l, (hf.2 i k).2 ⟨c, by rw [List.getElem?_append_left hk']; exact hk, c2⟩,
      (hf.2 j _).2 ⟨d, by rw [List.getElem?_append_right (by omega), show C1.length + l - C1.length = l by omega]; exact hl, d2⟩, by omega⟩

/-- coarse cells of which those in `K` are the same, in the same order, give the same map on `K` -/
theorem SameMap.of_numbers {n n' : Nat} {L D L' D' : List NSet} {f f' : List Nat} (hK : ∀ i, K i → i < n ∧ i < n')
    (hf : Numbers n (L ++ D) f) (hf' : Numbers n' (L' ++ D') f') (hL : cellsIn K L = cellsIn K L') (hD : cellsIn K D = cellsIn K D')
    (hin : ∀ c ∈ L ++ D, ∀ x ∈ c, K x → ∀ y ∈ c, K y) (hin' : ∀ c ∈ L' ++ D', ∀ x ∈ c, K x → ∀ y ∈ c, K y) :
    SameMap K L.length L'.length f f' := by
  have hlines : ∀ {n : Nat} {L D : List NSet} {f : List Nat}, Numbers n (L ++ D) f → ∀ (i k : Nat), K i → f[i]? = some k →
      (L.length ≤ k ↔ ∃ c ∈ cellsIn K D, i ∈ c) := by
    intro n L D f hf i k hi hk
    obtain ⟨c, c1, c2⟩ := (hf.2 i k).1 hk
    constructor
    · intro hle
      rw [List.getElem?_append_right hle] at c1
      exact ⟨c, mem_cellsIn.2 ⟨List.mem_of_getElem? c1, i, c2, hi⟩, c2⟩
    · rintro ⟨d, d1, d2⟩
      obtain ⟨l, hl⟩ := List.mem_iff_getElem?.1 (mem_cellsIn.1 d1).1
      have := (hf.2 i (L.length + l)).2 ⟨d, by rw [List.getElem?_append_right (by omega), show L.length + l - L.length = l by omega]; exact hl, d2⟩
      rw [hk] at this
      cases this
      omega
  refine ⟨fun i hi => ?_, fun i j hi hj => ?_, ?_, ?_, fun i k k' hi h1 h2 => ?_⟩
  · obtain ⟨h1, h2⟩ := hK i hi
    exact ⟨⟨_, List.getElem?_eq_getElem (by rw [hf.1]; exact h1)⟩, _, List.getElem?_eq_getElem (by rw [hf'.1]; exact h2)⟩
  · rw [numberedBefore_iff hf hi hj, numberedBefore_iff hf' hi hj, cellsIn_append, cellsIn_append, hL, hD]
  · intro i j k hi h1 h2
    obtain ⟨c, c1, c2⟩ := (hf.2 i k).1 h1
    obtain ⟨d, d1, d2⟩ := (hf.2 j k).1 h2
    rw [c1] at d1; cases d1
    exact hin c (List.mem_of_getElem? c1) i c2 hi j d2
  · intro i j k hi h1 h2
    obtain ⟨c, c1, c2⟩ := (hf'.2 i k).1 h1
    obtain ⟨d, d1, d2⟩ := (hf'.2 j k).1 h2
    rw [c1] at d1; cases d1
    exact hin' c (List.mem_of_getElem? c1) i c2 hi j d2
  · rw [hlines hf i k hi h1, hlines hf' i k' hi h2, hD]

/-! ### The correction of single cells -/

/-- two graphs that share the part `K` -/
structure PartGraphs (K : Nat → Prop) (rp ci rp' ci' : List Nat) : Prop where
  graph : PartGraph K rp ci rp' ci'
  apart : ∀ i j, ¬ K i → Adj rp ci i j → ¬ K j
  apart' : ∀ i j, ¬ K i → Adj rp' ci' i j → ¬ K j

theorem PartGraphs.symm {rp ci rp' ci' : List Nat} (h : PartGraphs K rp ci rp' ci') : PartGraphs K rp' ci' rp ci :=
  ⟨h.graph.symm, h.apart', h.apart⟩

theorem count_fcsOf (f : List Nat) (k : Nat) : f.count k = (fcsOf f k).card :=
  count_eq_card (fun _ => mem_fcsOf)

section
variable {rp ci rp' ci' f f' : List Nat} {m m' : Nat}

theorem SameMap.fcs (h : SameMap K m m' f f') {i r r' : Nat} (hi : K i) (h1 : f[i]? = some r) (h2 : f'[i]? = some r') :
    fcsOf f r = fcsOf f' r' := by
  apply NSet.ext
  intro j
  rw [mem_fcsOf, mem_fcsOf]
  constructor
  · intro hj
    have hjK := h.apart i j r hi h1 hj
    obtain ⟨_, l, hl⟩ := h.there j hjK
    rw [hl, ← (h.eq_iff hi hjK h1 hj h2 hl).1 rfl]
  · intro hj
    have hjK := h.apart' i j r' hi h2 hj
    obtain ⟨⟨l, hl⟩, _⟩ := h.there j hjK
    rw [hl, ← (h.eq_iff hi hjK h1 hl h2 hj).2 rfl]

theorem SameMap.count (h : SameMap K m m' f f') {i r r' : Nat} (hi : K i) (h1 : f[i]? = some r) (h2 : f'[i]? = some r') :
    f.count r = f'.count r' := by
  rw [count_fcsOf, count_fcsOf, h.fcs hi h1 h2]

theorem SameMap.facesTo (hg : PartGraph K rp ci rp' ci') (h : SameMap K m m' f f') {x i r r' : Nat} (hx : K x) (hi : K i)
    (h1 : f[i]? = some r) (h2 : f'[i]? = some r') : facesTo rp ci f x r = facesTo rp' ci' f' x r' := by
  unfold CoMMA.facesTo
  rw [hg.rows x hx]
  refine List.countP_congr (fun y hy => ?_)
  have hyK := hg.closed x y hx (adj_iff_rowOf.2 hy)
  rw [decide_eq_true_iff, decide_eq_true_iff]
  obtain ⟨⟨k, hk⟩, k', hk'⟩ := h.there y hyK
  rw [hk, hk', Option.some.injEq, Option.some.injEq]
  exact h.eq_iff hyK hi hk h1 hk' h2

theorem SameMap.gains (hg : PartGraph K rp ci rp' ci') (h : SameMap K m m' f f') {x i r r' : Nat} (hx : K x) (hi : K i)
    (h1 : f[i]? = some r) (h2 : f'[i]? = some r') (hG : Gains rp ci f x r) : Gains rp' ci' f' x r' := by
  obtain ⟨a, b, g1, g2, g3⟩ := hG
  have hK : ∀ j ∈ fcsOf f r, K j := fun j hj => h.apart i j r hi h1 (mem_fcsOf.1 hj)
  refine ⟨a, b, ?_, ?_, g3⟩
  · rw [← h.fcs hi h1 h2]; exact hg.compact hK g1
  · rw [← h.fcs hi h1 h2]
    refine hg.compact (fun j hj => ?_) g2
    rcases NSet.mem_insert.1 hj with rfl | hj
    · exact hx
    · exact hK j hj

/-- receivers correspond -/
theorem SameMap.receiver (hg : PartGraph K rp ci rp' ci') (h : SameMap K m m' f f') {x r : Nat} (hx : K x)
    (hr : Receiver rp ci f m x r) : ∃ y r', K y ∧ f[y]? = some r ∧ f'[y]? = some r' ∧ Receiver rp' ci' f' m' x r' := by
  obtain ⟨h1, h2, y, h3, h4⟩ := hr
  have hy := hg.closed x y hx h3
  obtain ⟨_, r', hr'⟩ := h.there y hy
  obtain ⟨⟨k, hk⟩, k', hk'⟩ := h.there x hx
  refine ⟨y, r', hy, h4, hr', ?_, (h.lines y r r' hy h4 hr').1 h2, y, (hg.adj hx).2 h3, hr'⟩
  rw [hk] at h1
  rw [hk']
  exact fun e => h1 (congrArg some ((h.eq_iff hx hy hk h4 hk' hr').2 (Option.some.inj e)))

theorem SameMap.best (hg : PartGraph K rp ci rp' ci') (h : SameMap K m m' f f') {x r : Nat} (hx : K x)
    (hr : BestReceiver rp ci f m x r) : ∃ y r', K y ∧ f[y]? = some r ∧ f'[y]? = some r' ∧ BestReceiver rp' ci' f' m' x r' := by
  obtain ⟨y, r', hy, h1, h2, h3⟩ := h.receiver hg hx hr.1
  refine ⟨y, r', hy, h1, h2, h3, fun s' hs' => ?_⟩
  obtain ⟨z, s, hz, k1, k2, k3⟩ := h.symm.receiver hg.symm hx hs'
  have e1 : Gains rp ci f x r ↔ Gains rp' ci' f' x r' := ⟨h.gains hg hx hy h1 h2, h.symm.gains hg.symm hx hy h2 h1⟩
  have e2 : Gains rp ci f x s ↔ Gains rp' ci' f' x s' := ⟨h.gains hg hx hz k2 k1, h.symm.gains hg.symm hx hz k1 k2⟩
  have := hr.2 s k3
  rw [e1, e2] at this
  refine this.imp id (fun g => ⟨g.1, ?_⟩)
  have g2 := g.2
  unfold Closer at g2 ⊢
  rw [← h.facesTo hg hx hy h1 h2, ← h.facesTo hg hx hz k2 k1, ← h.count hy h1 h2, ← h.count hz k2 k1, ← h.le_iff hy hz h1 k2 h2 k1]
  exact g2

/-- one coarse cell is treated -/
def MergeStep (rp ci : List Nat) (m k : Nat) (f f1 : List Nat) : Prop :=
  (1 < f.count k ∧ f1 = f) ∨ (f.count k = 1 ∧ ∃ x : Nat, f[x]? = some k ∧
    (((∀ r, ¬ Receiver rp ci f m x r) ∧ f1 = f) ∨ ∃ r, BestReceiver rp ci f m x r ∧ f1 = f.set x r))

theorem Merges.cons_step {k : Nat} {ks g : List Nat} (h : Merges rp ci m (k :: ks) f g) :
    ∃ f1, MergeStep rp ci m k f f1 ∧ Merges rp ci m ks f1 g := by
  cases h with
  | large h1 h2 => exact ⟨f, Or.inl ⟨h1, rfl⟩, h2⟩
  | @alone _ _ x _ _ h1 h2 h3 h4 => exact ⟨f, Or.inr ⟨h1, x, h2, Or.inl ⟨h3, rfl⟩⟩, h4⟩
  | @merged _ _ x r _ _ h1 h2 h3 h4 => exact ⟨f.set x r, Or.inr ⟨h1, x, h2, Or.inr ⟨r, h3, rfl⟩⟩, h4⟩

/-- coarse cell `k` has a cell in `K` -/
def LabelIn (K : Nat → Prop) (f : List Nat) (k : Nat) : Prop := ∃ x : Nat, K x ∧ f[x]? = some k

theorem SameMap.step_out (hg : PartGraphs K rp ci rp' ci') (h : SameMap K m m' f f') {k : Nat} {f1 : List Nat} (hk : ¬ LabelIn K f k)
    (hs : MergeStep rp ci m k f f1) : SameMap K m m' f1 f' ∧ ∀ z : Nat, K z → f1[z]? = f[z]? := by
  rcases hs with ⟨_, rfl⟩ | ⟨_, x, hx, ⟨_, rfl⟩ | ⟨r, hr, rfl⟩⟩
  · exact ⟨h, fun _ _ => rfl⟩
  · exact ⟨h, fun _ _ => rfl⟩
  · have hxK : ¬ K x := fun hc => hk ⟨x, hc, hx⟩
    obtain ⟨_, _, y, hy1, hy2⟩ := hr.1
    have hyK : ¬ K y := hg.apart x y hxK hy1
    have same : ∀ z : Nat, K z → (f.set x r)[z]? = f[z]? := by
      intro z hz
      rw [List.getElem?_set_ne (fun e : x = z => hxK (e ▸ hz))]
    refine ⟨⟨fun i hi => by rw [same i hi]; exact h.there i hi, fun i j hi hj => ?_, ?_, h.apart', ?_⟩, same⟩
    · rw [← h.order i j hi hj]
      unfold NumberedBefore
      rw [same i hi, same j hj]
    · intro i j k hi h1 h2
      rw [same i hi] at h1
      by_cases hjx : x = j
      · subst hjx
        rw [List.getElem?_set_self (List.getElem?_eq_some_iff.1 hx).1] at h2
        cases h2
        exact absurd (h.apart i y _ hi h1 hy2) hyK
      · rw [List.getElem?_set_ne hjx] at h2
        exact h.apart i j k hi h1 h2
    · intro i k k' hi h1 h2
      rw [same i hi] at h1
      exact h.lines i k k' hi h1 h2

theorem SameMap.step_in (hg : PartGraphs K rp ci rp' ci') (h : SameMap K m m' f f') {k k' x0 : Nat} {f1 f1' : List Nat}
    (h0 : K x0) (hk : f[x0]? = some k) (hk' : f'[x0]? = some k') (hs : MergeStep rp ci m k f f1) (hs' : MergeStep rp' ci' m' k' f' f1') :
    SameMap K m m' f1 f1' ∧ (f1 = f ∧ f1' = f' ∨ ∃ x y r r', K x ∧ K y ∧ f[x]? = some k ∧ f'[x]? = some k' ∧ f[y]? = some r ∧
      f'[y]? = some r' ∧ f1 = f.set x r ∧ f1' = f'.set x r') := by
  have hcount := h.count h0 hk hk'
  -- a cell of the coarse cell
  have hcell : ∀ x : Nat, f[x]? = some k → K x ∧ f'[x]? = some k' := by
    intro x hx
    have := mem_fcsOf.2 hx
    rw [h.fcs h0 hk hk', mem_fcsOf] at this
    exact ⟨h.apart x0 x k h0 hk hx, this⟩
  have hcell' : ∀ x : Nat, f'[x]? = some k' → K x ∧ f[x]? = some k := by
    intro x hx
    have := mem_fcsOf.2 hx
    rw [← h.fcs h0 hk hk', mem_fcsOf] at this
    exact ⟨h.apart' x0 x k' h0 hk' hx, this⟩
  have hone : f.count k = 1 → ∀ x y : Nat, f[x]? = some k → f[y]? = some k → x = y := by
    intro h1 x y hx hy
    rw [count_fcsOf] at h1
    by_contra hne
    have := NSet.card_le_of_subset (s := NSet.ofList [x, y]) (t := fcsOf f k) (fun a ha => by
      rw [NSet.mem_ofList] at ha
      rcases List.mem_cons.1 ha with rfl | ha
      · exact mem_fcsOf.2 hx
      · rw [List.mem_singleton.1 ha]; exact mem_fcsOf.2 hy)
    rw [NSet.card_ofList (by simpa using hne)] at this
    simp at this
    omega
  rcases hs with ⟨c1, rfl⟩ | ⟨c1, x, hx, hs⟩
  · rcases hs' with ⟨_, rfl⟩ | ⟨c2, _⟩
    · exact ⟨h, Or.inl ⟨rfl, rfl⟩⟩
    · omega
  · rcases hs' with ⟨c2, _⟩ | ⟨c2, x', hx', hs'⟩
    · omega
    · obtain ⟨hxK, hxk'⟩ := hcell x hx
      obtain rfl := hone c1 x x' hx (hcell' x' hx').2
      rcases hs with ⟨s1, rfl⟩ | ⟨r, s1, rfl⟩
      · rcases hs' with ⟨_, rfl⟩ | ⟨r', s1', rfl⟩
        · exact ⟨h, Or.inl ⟨rfl, rfl⟩⟩
        · obtain ⟨_, r, _, _, _, hr⟩ := h.symm.receiver hg.graph.symm hxK s1'.1
          exact absurd hr (s1 r)
      · obtain ⟨y, r1, hy, y1, y2, y3⟩ := h.best hg.graph hxK s1
        rcases hs' with ⟨s1', _⟩ | ⟨r', s1', rfl⟩
        · exact absurd y3.1 (s1' r1)
        · obtain rfl := y3.unique s1'
          have hlx := (List.getElem?_eq_some_iff.1 hx).1
          have hlx' := (List.getElem?_eq_some_iff.1 hxk').1
          -- the new map is the old one read at `σ`
          let σ : Nat → Nat := fun i => if i = x then y else i
          have hσ : ∀ i : Nat, (f.set x r)[i]? = f[σ i]? ∧ (f'.set x r1)[i]? = f'[σ i]? := by
            intro i
            by_cases hi : i = x
            · subst hi
              rw [List.getElem?_set_self hlx, List.getElem?_set_self hlx']
              simp only [σ, if_pos, y1, y2, and_self]
            · rw [List.getElem?_set_ne (Ne.symm hi), List.getElem?_set_ne (Ne.symm hi)]
              simp only [σ, if_neg hi, and_self]
          have hσK : ∀ i, K (σ i) ↔ K i := by
            intro i
            by_cases hi : i = x
            · simp only [σ, if_pos hi]; rw [hi]; exact ⟨fun _ => hxK, fun _ => hy⟩
            · simp only [σ, if_neg hi]
          refine ⟨⟨fun i hi => ?_, fun i j hi hj => ?_, ?_, ?_, ?_⟩, Or.inr ⟨x, y, r, r1, hxK, hy, hx, hxk', y1, y2, rfl, rfl⟩⟩
          · rw [(hσ i).1, (hσ i).2]; exact h.there _ ((hσK i).2 hi)
          · have := h.order _ _ ((hσK i).2 hi) ((hσK j).2 hj)
            unfold NumberedBefore at this ⊢
            rw [(hσ i).1, (hσ i).2, (hσ j).1, (hσ j).2]
            exact this
          · intro i j k hi h1 h2
            rw [(hσ i).1] at h1; rw [(hσ j).1] at h2
            exact (hσK j).1 (h.apart _ _ k ((hσK i).2 hi) h1 h2)
          · intro i j k hi h1 h2
            rw [(hσ i).2] at h1; rw [(hσ j).2] at h2
            exact (hσK j).1 (h.apart' _ _ k ((hσK i).2 hi) h1 h2)
          · intro i k k' hi h1 h2
            rw [(hσ i).1] at h1; rw [(hσ i).2] at h2
            exact h.lines _ k k' ((hσK i).2 hi) h1 h2

open Classical in
/-- the coarse cells of the lists that have a cell in `K` correspond -/
def SameRest (K : Nat → Prop) (f f' ks ks' : List Nat) : Prop :=
  List.Forall₂ (fun k k' => ∃ x : Nat, K x ∧ f[x]? = some k ∧ f'[x]? = some k')
    (ks.filter (fun k => decide (LabelIn K f k))) (ks'.filter (fun k => decide (LabelIn K f' k)))

theorem SameRest.symm {ks ks' : List Nat} (h : SameRest K f f' ks ks') : SameRest K f' f ks' ks := by
  unfold SameRest at *
  refine (List.Forall₂.flip h).imp ?_
  rintro k k' ⟨x, h1, h2, h3⟩
  exact ⟨x, h1, h3, h2⟩

theorem SameRest.congr {f1 : List Nat} {ks ks' : List Nat} (hf : ∀ z : Nat, K z → f1[z]? = f[z]?) (h : SameRest K f f' ks ks') :
    SameRest K f1 f' ks ks' := by
  unfold SameRest at *
  have : LabelIn K f1 = LabelIn K f := by
    funext k
    unfold LabelIn
    refine propext (exists_congr (fun x => and_congr_right (fun hx => ?_)))
    rw [hf x hx]
  rw [this]
  refine h.imp ?_
  rintro k k' ⟨x, h1, h2, h3⟩
  exact ⟨x, h1, by rw [hf x h1]; exact h2, h3⟩

theorem Merges.part (hg : PartGraphs K rp ci rp' ci') (ks : List Nat) : ∀ {f g : List Nat}, Merges rp ci m ks f g → ∀ {ks' f' g' : List Nat},
    Merges rp' ci' m' ks' f' g' → SameMap K m m' f f' → ks.Nodup → ks'.Nodup → SameRest K f f' ks ks' → SameMap K m m' g g' := by
  classical
  induction ks with
  | nil =>
    intro f g hm ks' f' g' hm' hs _ hn' hr
    cases hm
    induction ks' generalizing f' with
    | nil => cases hm'; exact hs
    | cons k' ks' ih =>
      obtain ⟨f1', h1, h2⟩ := hm'.cons_step
      have hout : ¬ LabelIn K f' k' := by
        intro hc
        unfold SameRest at hr
        rw [List.filter_cons, if_pos (decide_eq_true hc)] at hr
        cases hr
      obtain ⟨s1, s2⟩ := hs.symm.step_out hg.symm hout h1
      refine ih h2 s1.symm (List.nodup_cons.1 hn').2 ?_
      have : SameRest K f' f ks' [] := by
        unfold SameRest at hr ⊢
        rw [List.filter_cons, if_neg (by simpa using hout)] at hr
        exact SameRest.symm hr
      exact (this.congr s2).symm
  | cons k ks ih =>
    intro f g hm ks' f' g' hm' hs hn hn' hr
    obtain ⟨f1, h1, h2⟩ := hm.cons_step
    by_cases hin : LabelIn K f k
    · induction ks' generalizing f' with
      | nil =>
        unfold SameRest at hr
        rw [List.filter_cons, if_pos (decide_eq_true hin)] at hr
        cases hr
      | cons k' ks' ih' =>
        obtain ⟨f1', h1', h2'⟩ := hm'.cons_step
        by_cases hin' : LabelIn K f' k'
        · have hr' := hr
          unfold SameRest at hr'
          rw [List.filter_cons, if_pos (decide_eq_true hin), List.filter_cons, if_pos (decide_eq_true hin')] at hr'
          obtain ⟨⟨x0, hx0, hk, hk'⟩, htail⟩ := List.forall₂_cons.1 hr'
          obtain ⟨s1, s2⟩ := hs.step_in hg hx0 hk hk' h1 h1'
          refine ih h2 h2' s1 (List.nodup_cons.1 hn).2 (List.nodup_cons.1 hn').2 ?_
          rcases s2 with ⟨rfl, rfl⟩ | ⟨x, y, r, r', hx, hy, x1, x2, y1, y2, rfl, rfl⟩
          · exact htail
          · have lab : ∀ {f : List Nat} {k r k2 : Nat}, f[x]? = some k → f[y]? = some r → k2 ≠ k →
                (LabelIn K (f.set x r) k2 ↔ LabelIn K f k2) := by
              intro f k r k2 hfx hfy hne
              constructor
              · rintro ⟨z, hz, e⟩
                by_cases hzx : x = z
                · subst hzx
                  rw [List.getElem?_set_self (List.getElem?_eq_some_iff.1 hfx).1] at e
                  cases e
                  exact ⟨y, hy, hfy⟩
                · rw [List.getElem?_set_ne hzx] at e
                  exact ⟨z, hz, e⟩
              · rintro ⟨z, hz, e⟩
                have hzx : x ≠ z := by
                  rintro rfl
                  rw [hfx] at e
                  exact hne (Option.some.inj e).symm
                exact ⟨z, hz, by rw [List.getElem?_set_ne hzx]; exact e⟩
            unfold SameRest
            have e1 : ks.filter (fun k2 => decide (LabelIn K (f.set x r) k2)) = ks.filter (fun k2 => decide (LabelIn K f k2)) := by
              refine List.filter_congr (fun k2 hk2 => ?_)
              have : k2 ≠ k := fun e => (List.nodup_cons.1 hn).1 (e ▸ hk2)
              simp only [lab x1 y1 this]
            have e2 : ks'.filter (fun k2 => decide (LabelIn K (f'.set x r') k2)) = ks'.filter (fun k2 => decide (LabelIn K f' k2)) := by
              refine List.filter_congr (fun k2 hk2 => ?_)
              have : k2 ≠ k' := fun e => (List.nodup_cons.1 hn').1 (e ▸ hk2)
              simp only [lab x2 y2 this]
            rw [e1, e2]
            have hmem : ∀ k2 ∈ ks.filter (fun k2 => decide (LabelIn K f k2)), k2 ≠ k :=
              fun k2 hk2 e => (List.nodup_cons.1 hn).1 (e ▸ List.mem_of_mem_filter hk2)
            clear hr hr' e1 e2
            revert hmem htail
            generalize ks.filter (fun k2 => decide (LabelIn K f k2)) = l1
            generalize ks'.filter (fun k2 => decide (LabelIn K f' k2)) = l2
            intro htail hmem
            induction htail with
            | nil => exact .nil
            | @cons k2 k2' l1 l2 hh _ ihh =>
              obtain ⟨z, hz, z1, z2⟩ := hh
              refine .cons ⟨z, hz, ?_, ?_⟩ (ihh (fun k3 hk3 => hmem k3 (by simp [hk3])))
              · have hzx : x ≠ z := by
                  rintro rfl
                  rw [x1] at z1
                  exact hmem k2 (by simp) (Option.some.inj z1).symm
                rw [List.getElem?_set_ne hzx]; exact z1
              · have hzx : x ≠ z := by
                  rintro rfl
                  rw [x1] at z1
                  exact hmem k2 (by simp) (Option.some.inj z1).symm
                rw [List.getElem?_set_ne hzx]; exact z2
        · obtain ⟨s1, s2⟩ := hs.symm.step_out hg.symm hin' h1'
          refine ih' h2' s1.symm (List.nodup_cons.1 hn').2 ?_
          have : SameRest K f' f ks' (k :: ks) := by
            unfold SameRest at hr
            have hr2 := hr
            rw [List.filter_cons (x := k'), if_neg (by simpa using hin')] at hr2
            exact SameRest.symm hr2
          exact (this.congr s2).symm
    · obtain ⟨s1, s2⟩ := hs.step_out hg hin h1
      refine ih h2 hm' s1 (List.nodup_cons.1 hn).2 hn' ?_
      have : SameRest K f f' ks ks' := by
        unfold SameRest at hr ⊢
        rw [List.filter_cons, if_neg (by simpa using hin)] at hr
        exact hr
      exact this.congr s2

end

end CoMMA
