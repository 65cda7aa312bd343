import Verif.Lemmas.PartsMap
import Verif.Lemmas.NumberingLines
import Verif.Lemmas.LineSpec
import Verif.Lemmas.Lines
/-! # Two agglomerations that share a part of the mesh: correction as a whole, and lines -/

set_option linter.unusedSectionVars false

namespace CoMMA

variable {W F : Type} [Num W] {K : Nat → Prop}

/-! ### Correction as a whole -/

/-- two increasing lists related by an order-preserving correspondence -/
theorem forall₂_sorted {R : Nat → Nat → Prop} (hR : ∀ k k' j j', R k k' → R j j' → (k < j ↔ k' < j')) :
    ∀ {l l' : List Nat}, l.Pairwise (· < ·) → l'.Pairwise (· < ·) → (∀ k ∈ l, ∃ k' ∈ l', R k k') → (∀ k' ∈ l', ∃ k ∈ l, R k k') →
      List.Forall₂ R l l'
  | [], [], _, _, _, _ => .nil
  | [], k' :: l', _, _, _, h2 => by obtain ⟨k, hk, _⟩ := h2 k' (by simp); cases hk
  | k :: l, [], _, _, h1, _ => by obtain ⟨k', hk, _⟩ := h1 k (by simp); cases hk
  | k :: l, k' :: l', p1, p2, h1, h2 => by
    obtain ⟨a1, a2⟩ := List.pairwise_cons.1 p1
    obtain ⟨b1, b2⟩ := List.pairwise_cons.1 p2
    have hkk : R k k' := by
      obtain ⟨b, hb, r1⟩ := h1 k (by simp)
      obtain ⟨a, ha, r2⟩ := h2 k' (by simp)
      rcases List.mem_cons.1 hb with rfl | hb
      · exact r1
      · have hlt := (hR a k' k b r2 r1).2 (b1 b hb)
        rcases List.mem_cons.1 ha with rfl | ha
        · omega
        · have := a1 a ha; omega
    refine .cons hkk (forall₂_sorted hR a2 b2 (fun j hj => ?_) (fun j' hj' => ?_))
    · obtain ⟨j', hj', r⟩ := h1 j (by simp [hj])
      rcases List.mem_cons.1 hj' with rfl | hj'
      · have := (hR k j' j j' hkk r).1 (a1 j hj); omega
      · exact ⟨j', hj', r⟩
    · obtain ⟨j, hj, r⟩ := h2 j' (by simp [hj'])
      rcases List.mem_cons.1 hj with rfl | hj
      · have := (hR j k' j j' hkk r).2 (b1 j' hj'); omega
      · exact ⟨j, hj, r⟩

theorem mem_singlesOf {f : List Nat} {m N k : Nat} : k ∈ singlesOf f m N ↔ k < N ∧ m ≤ k ∧ f.count k = 1 := by
  unfold singlesOf
  rw [List.mem_filter, List.mem_range]
  simp

theorem singlesOf_sorted (f : List Nat) (m N : Nat) : (singlesOf f m N).Pairwise (· < ·) :=
  List.Pairwise.filter _ List.pairwise_lt_range

theorem SameMap.rest {m m' : Nat} {f f' : List Nat} (h : SameMap K m m' f f') {N N' : Nat} (hN : ∀ k ∈ f, k < N) (hN' : ∀ k ∈ f', k < N') :
    SameRest K f f' (singlesOf f m N) (singlesOf f' m' N') := by
  classical
  unfold SameRest
  refine forall₂_sorted ?_ ((singlesOf_sorted f m N).filter _) ((singlesOf_sorted f' m' N').filter _) ?_ ?_
  · rintro k k' j j' ⟨x, hx, x1, x2⟩ ⟨y, hy, y1, y2⟩
    exact h.lt_iff hx hy x1 y1 x2 y2
  · intro k hk
    rw [List.mem_filter, decide_eq_true_iff, mem_singlesOf] at hk
    obtain ⟨⟨_, h2, h3⟩, x, hx, x1⟩ := hk
    obtain ⟨_, k', x2⟩ := h.there x hx
    refine ⟨k', ?_, x, hx, x1, x2⟩
    rw [List.mem_filter, decide_eq_true_iff, mem_singlesOf]
    exact ⟨⟨hN' k' (List.mem_of_getElem? x2), (h.lines x k k' hx x1 x2).1 h2, by rw [← h.count hx x1 x2]; exact h3⟩, x, hx, x2⟩
  · intro k' hk
    rw [List.mem_filter, decide_eq_true_iff, mem_singlesOf] at hk
    obtain ⟨⟨_, h2, h3⟩, x, hx, x2⟩ := hk
    obtain ⟨⟨k, x1⟩, _⟩ := h.there x hx
    refine ⟨k, ?_, x, hx, x1, x2⟩
    rw [List.mem_filter, decide_eq_true_iff, mem_singlesOf]
    exact ⟨⟨hN k (List.mem_of_getElem? x1), (h.lines x k k' hx x1 x2).2 h2, by rw [h.count hx x1 x2]; exact h3⟩, x, hx, x1⟩

/-- the number of smaller indices in use -/
theorem inUse_lt {f : List Nat} {k l : Nat} (hk : k ∈ f) (h : k < l) :
    ((List.range k).filter (fun j => decide (j ∈ f))).length < ((List.range l).filter (fun j => decide (j ∈ f))).length := by
  have hsub : ((List.range (k + 1)).filter (fun j => decide (j ∈ f))).Sublist ((List.range l).filter (fun j => decide (j ∈ f))) :=
    List.Sublist.filter _ (List.range_sublist.2 h)
  have := hsub.length_le
  rw [List.range_succ, List.filter_append, List.length_append, List.filter_cons, if_pos (by simpa using hk)] at this
  simp at this
  omega

theorem inUse_lt_iff {f : List Nat} {k l : Nat} (hk : k ∈ f) (hl : l ∈ f) :
    ((List.range k).filter (fun j => decide (j ∈ f))).length < ((List.range l).filter (fun j => decide (j ∈ f))).length ↔ k < l := by
  constructor
  · intro h
    by_contra hc
    rcases Nat.lt_or_eq_of_le (Nat.le_of_not_lt hc) with h2 | rfl
    · have := inUse_lt hl h2; omega
    · omega
  · exact inUse_lt hk

theorem numberedBefore_renumbered (f : List Nat) (i j : Nat) : NumberedBefore (renumbered f) i j ↔ NumberedBefore f i j := by
  unfold NumberedBefore renumbered
  rw [List.getElem?_map, List.getElem?_map]
  cases hi : f[i]? with
  | none => simp
  | some k =>
    cases hj : f[j]? with
    | none => simp
    | some l =>
      simp only [Option.map_some, Option.some.injEq, exists_and_left, ↓existsAndEq, true_and]
      exact inUse_lt_iff (List.mem_of_getElem? hi) (List.mem_of_getElem? hj)

theorem renumbered_eq_iff (f : List Nat) (i j : Nat) : (renumbered f)[i]? = (renumbered f)[j]? ↔ f[i]? = f[j]? := by
  unfold renumbered
  rw [List.getElem?_map, List.getElem?_map]
  cases hi : f[i]? with
  | none => cases hj : f[j]? <;> simp
  | some k =>
    cases hj : f[j]? with
    | none => simp
    | some l =>
      simp only [Option.map_some, Option.some.injEq]
      have h1 := inUse_lt_iff (List.mem_of_getElem? hi) (List.mem_of_getElem? hj)
      have h2 := inUse_lt_iff (List.mem_of_getElem? hj) (List.mem_of_getElem? hi)
      omega

theorem SameMap.cells {m m' : Nat} {f f' : List Nat} (h : SameMap K m m' f f') : SameCells K f f' := by
  refine ⟨fun i j hi hj => ?_, h.order, fun i j hi hj => ?_⟩
  · obtain ⟨⟨k, hk⟩, k', hk'⟩ := h.there i hi
    obtain ⟨⟨l, hl⟩, l', hl'⟩ := h.there j hj
    rw [hk, hk', hl, hl', Option.some.injEq, Option.some.injEq]
    exact h.eq_iff hi hj hk hl hk' hl'
  · obtain ⟨⟨k, hk⟩, k', hk'⟩ := h.there i hi
    constructor
    · intro e; rw [hk] at e; exact hj (h.apart i j k hi hk e.symm)
    · intro e; rw [hk'] at e; exact hj (h.apart' i j k' hi hk' e.symm)

theorem SameCells.renumbered {f f' : List Nat} (h : SameCells K f f') : SameCells K (renumbered f) (renumbered f') := by
  refine ⟨fun i j hi hj => ?_, fun i j hi hj => ?_, fun i j hi hj => ?_⟩
  · rw [renumbered_eq_iff, renumbered_eq_iff]; exact h.together i j hi hj
  · rw [numberedBefore_renumbered, numberedBefore_renumbered]; exact h.order i j hi hj
  · rw [ne_eq, ne_eq, renumbered_eq_iff, renumbered_eq_iff]; exact h.apart i j hi hj

theorem SameMap.corrected {rp ci rp' ci' : List Nat} (hg : PartGraphs K rp ci rp' ci') {m m' : Nat} {f f' g g' : List Nat}
    (h : SameMap K m m' f f') (h1 : CorrectionOf rp ci m f g) (h2 : CorrectionOf rp' ci' m' f' g') : SameCells K g g' := by
  obtain ⟨N, f1, a1, a2, rfl⟩ := h1
  obtain ⟨N', f1', b1, b2, rfl⟩ := h2
  refine SameCells.renumbered (SameMap.cells (m := m) (m' := m') ?_)
  exact Merges.part hg _ a2 b2 h (List.nodup_range.filter _) (List.nodup_range.filter _) (h.rest a1 b1)

/-! ### Faces and lines -/

/-- two graphs that are the same on the cells `K`, which have no face in common with others -/
structure PartCells (K : Nat → Prop) (g g' : Graph W) : Prop where
  graphs : PartGraphs K g.rowPtr g.colInd g'.rowPtr g'.colInd
  faces : ∀ i, K i → facesOf g' i = facesOf g i
  centers : ∀ i : Nat, K i → g'.centers[i]? = g.centers[i]?
  bnd : ∀ i : Nat, K i → g'.nBnd[i]? = g.nBnd[i]?
  dim : g'.dim = g.dim

theorem PartCells.symm {g g' : Graph W} (h : PartCells K g g') : PartCells K g' g :=
  ⟨h.graphs.symm, fun i hi => (h.faces i hi).symm, fun i hi => (h.centers i hi).symm, fun i hi => (h.bnd i hi).symm, h.dim.symm⟩

theorem PartCells.left {g g' : Graph W} (h : PartCells K g g') : PartCells K g g :=
  ⟨⟨⟨fun _ _ => rfl, h.graphs.graph.closed⟩, h.graphs.apart, h.graphs.apart⟩, fun _ _ => rfl, fun _ _ => rfl, fun _ _ => rfl, rfl⟩

section lines
variable {g g' : Graph W} (h : PartCells K g g') {coupling : Coupling} {force : Bool}
include h

theorem PartCells.coupled {i : Nat} (hi : K i) (n : Nat) (w : W) : CouplingOf g' coupling i n w ↔ CouplingOf g coupling i n w := by
  cases coupling with
  | unknown => unfold CouplingOf; simp
  | maxWeight =>
    show (∃ k, FaceAt g' i k n ∧ g'.values[k]? = some w) ↔ ∃ k, FaceAt g i k n ∧ g.values[k]? = some w
    rw [← mem_faces, ← mem_faces, h.faces i hi]
  | minDistance =>
    have h1 := h.graphs.graph.adj (y := n) hi
    rw [← face_adj (g := g), ← face_adj (g := g')] at h1
    unfold CouplingOf
    constructor
    · rintro ⟨k, h2, h3⟩
      obtain ⟨k', h4⟩ := h1.1 ⟨k, h2⟩
      have hn := h.graphs.graph.closed i n hi (face_adj.1 ⟨k', h4⟩)
      simp only [h.centers i hi, h.centers n hn] at h3
      exact ⟨k', h4, h3⟩
    · rintro ⟨k, h2, h3⟩
      obtain ⟨k', h4⟩ := h1.2 ⟨k, h2⟩
      have hn := h.graphs.graph.closed i n hi (face_adj.1 ⟨k, h2⟩)
      refine ⟨k', h4, ?_⟩
      simp only [h.centers i hi, h.centers n hn]
      exact h3

theorem PartCells.strong {i : Nat} (hi : K i) (n : Nat) (w : W) : StrongCoupling g' coupling i n w ↔ StrongCoupling g coupling i n w := by
  unfold StrongCoupling StrongestOf
  simp only [h.coupled hi]

theorem PartCells.stepDir {i n : Nat} (hi : K i) (hn : K n) (d : List W) : StepDir g' i n d ↔ StepDir g i n d := by
  unfold StepDir
  rw [h.centers i hi, h.centers n hn]

theorem PartCells.ahead {i n : Nat} (hi : K i) (hn : K n) (d : List W) (c : W) : Ahead g' d i n c ↔ Ahead g d i n c := by
  unfold Ahead
  simp only [h.stepDir hi hn]

theorem NextCell.part {free free' : Nat → Prop} (hf : ∀ x, K x → (free' x ↔ free x)) {d : Option (List W)} {i : Nat} {r : Option Nat}
    (hi : K i) (hn : NextCell g coupling force free d i r) : NextCell g' coupling force free' d i r := by
  have hcl : ∀ n w, StrongCoupling g coupling i n w → K n := fun n w hs => h.graphs.graph.closed i n hi hs.1.adj
  have hC : ByCoupling g' coupling free' i = ByCoupling g coupling free i := by
    funext n w
    unfold ByCoupling
    rw [h.strong hi]
    exact propext (and_congr_left (fun hs => hf n (hcl n w hs)))
  have hD : ∀ e, ByDirection g' coupling free' e i = ByDirection g coupling free e i := by
    intro e
    funext n c
    unfold ByDirection
    simp only [h.strong hi]
    refine propext ⟨?_, ?_⟩
    · rintro ⟨h1, ⟨w, h2⟩, h3⟩
      have hn := hcl n w h2
      exact ⟨(hf n hn).1 h1, ⟨w, h2⟩, (h.ahead hi hn e c).1 h3⟩
    · rintro ⟨h1, ⟨w, h2⟩, h3⟩
      have hn := hcl n w h2
      exact ⟨(hf n hn).2 h1, ⟨w, h2⟩, (h.ahead hi hn e c).2 h3⟩
  have hA : ∀ e, AnyDirection g' free' e i = AnyDirection g free e i := by
    intro e
    funext n c
    unfold AnyDirection
    rw [h.graphs.graph.adj hi]
    refine propext ⟨?_, ?_⟩
    · rintro ⟨h1, h2, h3⟩
      have hn := h.graphs.graph.closed i n hi h2
      exact ⟨(hf n hn).1 h1, h2, (h.ahead hi hn e c).1 h3⟩
    · rintro ⟨h1, h2, h3⟩
      have hn := h.graphs.graph.closed i n hi h2
      exact ⟨(hf n hn).2 h1, h2, (h.ahead hi hn e c).2 h3⟩
  cases hn with
  | strongest h1 h2 => exact .strongest h1 (by rw [hC]; exact h2)
  | noStrong h1 h2 => exact .noStrong h1 (by rw [hC]; exact h2)
  | straight h1 h2 => exact .straight h1 (by rw [hD]; exact h2)
  | loose h1 h2 h3 => exact .loose h1 (by rw [hD]; exact h2) (by rw [hA]; exact h3)
  | noWay h1 h2 h3 => exact .noWay h1 (by rw [hD]; exact h2) (by rw [hA]; exact h3)

theorem LineWalk.part {free : Nat → Prop} {d : Option (List W)} {i : Nat} {l : List Nat} (hw : LineWalk g coupling force free d i l) :
    K i → ∀ {free' : Nat → Prop}, (∀ x, K x → (free' x ↔ free x)) → LineWalk g' coupling force free' d i l ∧ ∀ x ∈ l, K x := by
  induction hw with
  | stop h1 => intro hi free' hf; exact ⟨.stop (h1.part h hf hi), by simp⟩
  | @step free d i x d' rest h1 h2 h3 ih =>
    intro hi free' hf
    have hx := h.graphs.graph.closed i x hi h1.adj
    obtain ⟨g1, g2⟩ := ih hx (free' := fun n => free' n ∧ n ≠ x) (fun y hy => by rw [hf y hy])
    exact ⟨.step (h1.part h hf hi) ((h.stepDir hi hx _).2 h2) g1, by simpa using ⟨hx, g2⟩⟩

theorem LineWalk.out {free : Nat → Prop} {d : Option (List W)} {i : Nat} {l : List Nat} (hw : LineWalk g coupling force free d i l) :
    ¬ K i → ∀ x ∈ l, ¬ K x := by
  induction hw with
  | stop h1 => intro hi; simp
  | @step free d i x d' rest h1 h2 h3 ih =>
    intro hi
    have hx := h.graphs.apart i x hi h1.adj
    simpa using ⟨hx, ih hx⟩

theorem LineFrom.part {free free' : Nat → Prop} (hf : ∀ x, K x → (free' x ↔ free x)) {p : Nat} {l : List Nat} (hp : K p)
    (hw : LineFrom g coupling force free p l) : LineFrom g' coupling force free' p l ∧ ∀ x ∈ l, K x := by
  cases hw with
  | alone h1 =>
    exact ⟨.alone (h1.part h hp (fun y hy => by rw [hf y hy])).1, by simpa using hp⟩
  | @both x front back d h1 h2 h3 =>
    obtain ⟨a1, a2⟩ := h1.part h hp (free' := fun n => free' n ∧ n ≠ p) (fun y hy => by rw [hf y hy])
    obtain ⟨b1, b2⟩ := h3.part h hp (free' := fun n => (free' n ∧ n ≠ p) ∧ n ∉ x :: front) (fun y hy => by rw [hf y hy])
    refine ⟨.both a1 ((h.stepDir hp (a2 x (by simp)) _).2 h2) b1, ?_⟩
    intro y hy
    rw [List.mem_append, List.mem_reverse, List.mem_cons] at hy
    rcases hy with hy | rfl | hy
    · exact b2 y hy
    · exact hp
    · exact a2 y hy

theorem LineFrom.out {free : Nat → Prop} {p : Nat} {l : List Nat} (hp : ¬ K p)
    (hw : LineFrom g coupling force free p l) : ∀ x ∈ l, ¬ K x := by
  cases hw with
  | alone h1 => simpa using hp
  | @both x front back d h1 h2 h3 =>
    have a2 := h1.out h hp
    have b2 := h3.out h hp
    intro y hy
    rw [List.mem_append, List.mem_reverse, List.mem_cons] at hy
    rcases hy with hy | rfl | hy
    · exact b2 y hy
    · exact hp
    · exact a2 y hy

end lines

theorem LineFrom.ne_nil {g : Graph W} {coupling : Coupling} {force : Bool} {free : Nat → Prop} {p : Nat} {l : List Nat}
    (h : LineFrom g coupling force free p l) : p ∈ l := by
  cases h <;> simp

theorem linesIn_cons_in {l : List Nat} {ls : List (List Nat)} (h : ∃ x ∈ l, K x) : linesIn K (l :: ls) = l :: linesIn K ls := by
  classical
  unfold linesIn
  rw [List.filter_cons, if_pos (decide_eq_true h)]

theorem linesIn_cons_out {l : List Nat} {ls : List (List Nat)} (h : ∀ x ∈ l, ¬ K x) : linesIn K (l :: ls) = linesIn K ls := by
  classical
  unfold linesIn
  rw [List.filter_cons, if_neg (by simpa using h)]

open Classical in
theorem LinesFrom.onPart {g g' : Graph W} (h : PartCells K g g') {coupling : Coupling} {force : Bool} {free : Nat → Prop} {seeds : List Nat}
    {ls : List (List Nat)} (hw : LinesFrom g coupling force free seeds ls) : ∀ {free' : Nat → Prop}, (∀ x, K x → (free' x ↔ free x)) →
      LinesFrom g' coupling force free' (seeds.filter (fun x => decide (K x))) (linesIn K ls) ∧ Inside K ls := by
  induction hw with
  | done => intro free' _; exact ⟨.done, by intro l hl; cases hl⟩
  | @taken free p rest ls h1 h2 ih =>
    intro free' hf
    obtain ⟨a, b⟩ := ih hf
    refine ⟨?_, b⟩
    by_cases hp : K p
    · rw [List.filter_cons, if_pos (decide_eq_true hp)]
      exact .taken (fun hc => h1 ((hf p hp).1 hc)) a
    · rw [List.filter_cons, if_neg (by simpa using hp)]
      exact a
  | @single free p rest ls h1 h2 h3 ih =>
    intro free' hf
    by_cases hp : K p
    · obtain ⟨a, b⟩ := ih (free' := fun n => free' n ∧ n ≠ p) (fun x hx => by rw [hf x hx])
      refine ⟨?_, b⟩
      rw [List.filter_cons, if_pos (decide_eq_true hp)]
      exact .single ((hf p hp).2 h1) (h2.part h hf hp).1 a
    · obtain ⟨a, b⟩ := ih (free' := free') (fun x hx => by
        rw [hf x hx]
        exact ⟨fun e => ⟨e, fun e2 => hp (e2 ▸ hx)⟩, fun e => e.1⟩)
      refine ⟨?_, b⟩
      rw [List.filter_cons, if_neg (by simpa using hp)]
      exact a
  | @line free p rest l ls h1 h2 hlen h3 ih =>
    intro free' hf
    by_cases hp : K p
    · obtain ⟨c1, c2⟩ := h2.part h hf hp
      obtain ⟨a, b⟩ := ih (free' := fun n => free' n ∧ n ∉ l) (fun x hx => by rw [hf x hx])
      refine ⟨?_, ?_⟩
      · rw [List.filter_cons, if_pos (decide_eq_true hp), linesIn_cons_in ⟨p, h2.ne_nil, hp⟩]
        exact .line ((hf p hp).2 h1) c1 hlen a
      · intro l' hl'
        rcases List.mem_cons.1 hl' with rfl | hl'
        · exact fun _ _ _ => c2
        · exact b l' hl'
    · have c2 := h2.out h hp
      obtain ⟨a, b⟩ := ih (free' := free') (fun x hx => by
        rw [hf x hx]
        exact ⟨fun e => ⟨e, fun e2 => c2 x e2 hx⟩, fun e => e.1⟩)
      refine ⟨?_, ?_⟩
      · rw [List.filter_cons, if_neg (by simpa using hp), linesIn_cons_out c2]
        exact a
      · intro l' hl'
        rcases List.mem_cons.1 hl' with rfl | hl'
        · exact fun x hx hc => absurd hc (c2 x hx)
        · exact b l' hl'

open Classical in
/-- the lines grown in `K` are the same -/
theorem LinesFrom.samePart (hW : LawfulLt W) {g g' : Graph W} (h : PartCells K g g') {coupling : Coupling} {force : Bool} {free free' : Nat → Prop}
    {seeds seeds' : List Nat} {ls ls' : List (List Nat)} (hw : LinesFrom g coupling force free seeds ls)
    (hw' : LinesFrom g' coupling force free' seeds' ls') (hf : ∀ x, K x → (free' x ↔ free x))
    (hs : seeds.filter (fun x => decide (K x)) = seeds'.filter (fun x => decide (K x))) :
    linesIn K ls = linesIn K ls' ∧ Inside K ls ∧ Inside K ls' := by
  obtain ⟨a1, a2⟩ := hw.onPart h hf
  obtain ⟨b1, b2⟩ := hw'.onPart h.symm.left (free' := free') (fun _ _ => Iff.rfl)
  rw [← hs] at b1
  exact ⟨a1.unique hW b1, a2, b2⟩

theorem PartCells.anisotropic {g g' : Graph W} (h : PartCells K g g') (thr : W) {i : Nat} (hi : K i) :
    IsAnisotropic g' thr i ↔ IsAnisotropic g thr i := by
  have hw : ∀ (g : Graph W) w, FaceWeight g i w ↔ ∃ n, n ≠ i ∧ (n, w) ∈ facesOf g i := by
    intro g w
    unfold FaceWeight
    simp only [mem_faces, FaceAt]
    constructor
    · rintro ⟨b, e, k, n, h1, h2, h3, h4, h5, h6, h7⟩
      exact ⟨n, h6, k, ⟨b, e, h1, h2, h3, h4, h5⟩, h7⟩
    · rintro ⟨n, h6, k, ⟨b, e, h1, h2, h3, h4, h5⟩, h7⟩
      exact ⟨b, e, k, n, h1, h2, h3, h4, h5, h6, h7⟩
  have hF : ∀ w, FaceWeight g' i w ↔ FaceWeight g i w := by
    intro w
    rw [hw, hw, h.faces i hi]
  unfold IsAnisotropic WeightRange
  simp only [hF, h.dim]

/-! ### Groups -/

theorem Pairs.cells {odd : Bool} {limit : Option Int} {k : Nat} {l : List Nat} {gs : List (List Nat)} (h : Pairs odd limit k l gs) :
    ∀ g ∈ gs, (∃ x, x ∈ g) ∧ ∀ x ∈ g, x ∈ l := by
  induction h with
  | done => simp
  | full => simp
  | three => intro g hg; rw [List.mem_singleton.1 hg]; exact ⟨⟨_, List.mem_cons_self⟩, by simp⟩
  | last => intro g hg; rw [List.mem_singleton.1 hg]; exact ⟨⟨_, List.mem_cons_self⟩, by simp⟩
  | two _ _ _ ih =>
    intro g hg
    rcases List.mem_cons.1 hg with rfl | hg
    · exact ⟨⟨_, List.mem_cons_self⟩, by simp⟩
    · obtain ⟨a, b⟩ := ih g hg
      exact ⟨a, fun x hx => by simp [b x hx]⟩

theorem Oriented.mem_iff {nBnd : List Nat} {prio : List W} {line l : List Nat} (h : Oriented nBnd prio line l) (x : Nat) : x ∈ l ↔ x ∈ line := by
  obtain ⟨fr, bk, _, _, ⟨_, rfl⟩ | ⟨_, rfl⟩⟩ := h
  · rfl
  · exact List.mem_reverse

theorem Oriented.part {nBnd nBnd' : List Nat} {prio prio' : List W} (hb : ∀ i : Nat, K i → nBnd'[i]? = nBnd[i]?)
    (hp : ∀ i : Nat, K i → prio'[i]? = prio[i]?) {line l : List Nat} (hl : ∀ x ∈ line, K x) (h : Oriented nBnd prio line l) :
    Oriented nBnd' prio' line l := by
  obtain ⟨fr, bk, h1, h2, h3⟩ := h
  refine ⟨fr, bk, h1, h2, ?_⟩
  have e1 := hl fr (List.mem_of_head? h1)
  have e2 := hl bk (List.mem_of_getLast? h2)
  have : FrontFirst nBnd' prio' fr bk ↔ FrontFirst nBnd prio fr bk := by
    unfold FrontFirst
    rw [hb fr e1, hb bk e2, hp fr e1, hp bk e2]
  rw [this]
  exact h3

/-- how the groups of the lines in `K` are made -/
theorem groups_onPart {R : List Nat → List (List Nat) → Prop} {fls : List (List Nat)} {gss : List (List (List Nat))}
    (h : List.Forall₂ R fls gss) (hR : ∀ l gs, R l gs → ∀ g ∈ gs, (∃ x, x ∈ g) ∧ ∀ x ∈ g, x ∈ l) (hin : Inside K fls) :
    Inside K gss.flatten ∧ ∃ gss1, List.Forall₂ R (linesIn K fls) gss1 ∧ linesIn K gss.flatten = gss1.flatten := by
  classical
  induction h with
  | nil => exact ⟨by intro l hl; simp at hl, [], .nil, rfl⟩
  | @cons l gs fls gss h1 _ ih =>
    obtain ⟨a, gss1, b, c⟩ := ih (fun l hl => hin l (by simp [hl]))
    have hg := hR l gs h1
    constructor
    · intro g hgm x hx hK y hy
      rw [List.flatten_cons, List.mem_append] at hgm
      rcases hgm with hgm | hgm
      · exact hin l (by simp) x ((hg g hgm).2 x hx) hK y ((hg g hgm).2 y hy)
      · exact a g hgm x hx hK y hy
    · by_cases hl : ∃ x ∈ l, K x
      · obtain ⟨x, hx, hK⟩ := hl
        refine ⟨gs :: gss1, ?_, ?_⟩
        · rw [linesIn_cons_in ⟨x, hx, hK⟩]; exact .cons h1 b
        · rw [List.flatten_cons, List.flatten_cons, ← c]
          unfold linesIn
          rw [List.filter_append, List.filter_eq_self.2]
          intro g hgm
          obtain ⟨⟨y, hy⟩, h2⟩ := hg g hgm
          exact decide_eq_true ⟨y, hy, hin l (by simp) x hx hK y (h2 y hy)⟩
      · have hl' : ∀ x ∈ l, ¬ K x := fun x hx hK => hl ⟨x, hx, hK⟩
        refine ⟨gss1, ?_, ?_⟩
        · rw [linesIn_cons_out hl']; exact b
        · rw [List.flatten_cons, ← c]
          unfold linesIn
          rw [List.filter_append, List.filter_eq_nil_iff.2, List.nil_append]
          intro g hgm hc
          obtain ⟨y, hy, hK⟩ := of_decide_eq_true hc
          exact hl' y ((hg g hgm).2 y hy) hK

theorem groups_same {R R' : List Nat → List (List Nat) → Prop} {fK : List (List Nat)} {gss gss' : List (List (List Nat))}
    (h : List.Forall₂ R fK gss) (h' : List.Forall₂ R' fK gss') (hR : ∀ l ∈ fK, ∀ gs gs', R l gs → R' l gs' → gs = gs') : gss = gss' := by
  induction h generalizing gss' with
  | nil => cases h'; rfl
  | cons h1 _ ih =>
    cases h' with
    | cons h1' h2' => rw [hR _ (by simp) _ _ h1 h1', ih h2' (fun l hl => hR l (by simp [hl]))]

end CoMMA
