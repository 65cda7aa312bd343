import Verif.Lemmas.TileSize
/-! # Rows of cells: the coarse cell grown from an end of a block -/

set_option linter.unusedSectionVars false

namespace CoMMA.Tile

variable {W F : Type} [Num W]
variable {B : Nat} {ext : Nat → Nat} {n : Nat} {pos : Nat → Nat → Nat} {R : Nat → Nat → Prop}

theorem same_one {u v : Nat → Nat} : SameTile B 1 u v ↔ u 0 / B = v 0 / B := by
  constructor
  · intro h; exact h 0 (by omega)
  · intro h ax hax
    have : ax = 0 := by omega
    subst this
    exact h

/-- the cells taken are next to each other, from the end on -/
theorem row_seq {E : IsoEnv W F} (G : TileGrid B 1 ext n pos (Adj E.g.rowPtr E.g.colInd)) {agg : List Bool} {s : Nat} (hsn : s < n)
    (hc : TileCorner B 1 pos (Adj E.g.rowPtr E.g.colInd) (fun x => agg[x]? = some true) s) {d : NMap Nat}
    (hfree : ∀ x ∈ d.keySet, agg[x]? = some false) {hi : Nat} {xs : List Nat} {f : F} (h : GreedySeq E d hi xs f) :
    xs.head? = some s → ∀ x ∈ xs, x < n ∧ 0 ≤ co B (pos s 0) (pos x 0) ∧ co B (pos s 0) (pos x 0) < xs.length := by
  have hB2 := G.two
  have hB0 : 0 < B := by omega
  induction h with
  | @seed t f h =>
    intro hh x hx
    rw [List.mem_singleton] at hx
    subst hx
    cases hh
    refine ⟨hsn, ?_⟩
    unfold co
    simp
  | @next xs l f f' c m hg hn hb ih =>
    intro hh x hx
    have ih := ih (head_of_snoc hh hg.not_nil)
    rw [List.length_append, List.length_singleton]
    rcases List.mem_append.1 hx with hx | hx
    · have := ih x hx
      omega
    · rw [List.mem_singleton] at hx
      subst hx
      obtain ⟨hk, _, y, hy, hR⟩ := cands_inFront hn hb.spec.1
      obtain ⟨_, hxn, ax, hax, hstep, _⟩ := (G.grid.adj y x).1 hR
      have hax0 : ax = 0 := by omega
      subst hax0
      obtain ⟨hyn, h1, h2⟩ := ih y hy
      have hco : co B (pos s 0) (pos x 0) = co B (pos s 0) (pos y 0) + 1 ∨ co B (pos s 0) (pos x 0) + 1 = co B (pos s 0) (pos y 0) := by
        unfold co
        split <;> omega
      refine ⟨hxn, ?_, by omega⟩
      by_contra hneg
      -- the cell before the end is taken
      have hys : pos y 0 = pos s 0 := by
        have : co B (pos s 0) (pos y 0) = 0 := by omega
        unfold co at this
        split at this <;> omega
      have hyz : y = s := G.grid.inj y hyn s hsn (fun b hb => by
        have : b = 0 := by omega
        subst this
        exact hys)
      subst hyz
      have : agg[x]? = some true := hc.2 x hR (fun h => by
        have h3 := (co_iff hB0 (hc.1 0 (by omega))).1 (same_one.1 h).symm
        omega)
      rw [hfree x hk] at this
      cases this

open Classical in
/-- the cells of a block of a row -/
theorem row_card (G : TileGrid B 1 ext n pos R) {T : Finset Nat} {s : Nat} (hs : s < n)
    (hT : ∀ x, x ∈ T ↔ x < n ∧ SameTile B 1 (pos x) (pos s)) : T.card = B := by
  have hB2 := G.two
  have hB0 : 0 < B := by omega
  have hdiv : ∀ i < B, (B * (pos s 0 / B) + i) / B = pos s 0 / B := by
    intro i hi
    rw [Nat.add_comm, Nat.add_mul_div_left _ _ hB0, Nat.div_eq_of_lt hi, Nat.zero_add]
  apply Nat.le_antisymm
  · have := Finset.card_le_card_of_injOn (s := T) (t := Finset.range B) (fun x => pos x 0 % B) (fun x _ => by
      simp only [Finset.coe_range, Set.mem_Iio]
      exact Nat.mod_lt _ hB0) (by
      intro x hx y hy hxy
      have hx := (hT x).1 hx
      have hy := (hT y).1 hy
      have hxy : pos x 0 % B = pos y 0 % B := hxy
      have h1 := same_one.1 hx.2
      have h2 := same_one.1 hy.2
      refine G.grid.inj x hx.1 y hy.1 (fun b hb => ?_)
      have : b = 0 := by omega
      subst this
      have e1 := Nat.div_add_mod (pos x 0) B
      have e2 := Nat.div_add_mod (pos y 0) B
      rw [← e1, ← e2, h1, h2, hxy])
    rwa [Finset.card_range] at this
  · have hget : ∀ i, i < B → ∃ c, c < n ∧ pos c 0 = B * (pos s 0 / B) + i := by
      intro i hi
      obtain ⟨c, hc, h⟩ := G.grid.surj (fun _ => B * (pos s 0 / B) + i) (by
        intro ax hax
        have : ax = 0 := by omega
        subst this
        exact tile_lt hB0 (hdiv i hi) (G.grid.range s hs 0 hax) (G.mult 0 hax))
      exact ⟨c, hc, h 0 (by omega)⟩
    choose! cell hcell using hget
    have := Finset.card_le_card_of_injOn (s := Finset.range B) (t := T) cell (by
      intro i hi
      simp only [Finset.coe_range, Set.mem_Iio] at hi
      refine Finset.mem_coe.2 ((hT _).2 ⟨(hcell i hi).1, same_one.2 ?_⟩)
      rw [(hcell i hi).2]
      exact hdiv i hi) (by
      intro i hi j hj he
      simp only [Finset.coe_range, Set.mem_Iio] at hi hj
      have h1 := (hcell i hi).2
      have h2 := (hcell j hj).2
      rw [he] at h1
      omega)
    rwa [Finset.card_range] at this

open Classical in
/-- a block of a row has two faces -/
theorem row_faces (G : TileGrid B 1 ext n pos R) {T : Finset Nat} {s : Nat}
    (hT : ∀ x, x ∈ T ↔ x < n ∧ SameTile B 1 (pos x) (pos s)) :
    ∑ x ∈ T, ((dirs 1).filter (Lonely 1 pos T x)).card ≤ 2 := by
  have hB2 := G.two
  have hB0 : 0 < B := by omega
  have h := Finset.sum_card_bipartiteAbove_eq_sum_card_bipartiteBelow (s := T) (t := dirs 1) (Lonely 1 pos T)
  unfold Finset.bipartiteAbove Finset.bipartiteBelow at h
  rw [h]
  refine Nat.le_trans (Finset.sum_le_card_nsmul _ _ 1 (fun d hd => ?_)) (by decide)
  obtain ⟨a, up⟩ := d
  have ha : a < 1 := mem_dirs.1 hd
  have ha0 : a = 0 := by omega
  subst ha0
  -- of two cells one has a neighbour in the block in this direction
  have key : ∀ x ∈ T, ∀ y ∈ T, pos x 0 < pos y 0 →
      (∃ z ∈ T, pos x 0 + 1 = pos z 0) ∧ ∃ z ∈ T, pos z 0 + 1 = pos y 0 := by
    intro x hx y hy hlt
    obtain ⟨hxn, hxs⟩ := (hT x).1 hx
    obtain ⟨hyn, hys⟩ := (hT y).1 hy
    have hxy := (same_one.1 hxs).trans (same_one.1 hys).symm
    have hr := G.grid.range y hyn 0 (by omega)
    have get : ∀ v, pos x 0 ≤ v → v ≤ pos y 0 → ∃ z ∈ T, pos z 0 = v := by
      intro v h1 h2
      obtain ⟨z, hz, hz1, _⟩ := G.grid.move (a := 0) hxn (v := v) (by omega)
      have hz1 := hz1 (by omega)
      refine ⟨z, (hT z).2 ⟨hz, same_one.2 ?_⟩, hz1⟩
      rw [hz1, div_between h1 h2 hxy]
      exact same_one.1 hxs
    constructor
    · obtain ⟨z, hz, e⟩ := get (pos x 0 + 1) (by omega) (by omega)
      exact ⟨z, hz, e.symm⟩
    · obtain ⟨z, hz, e⟩ := get (pos y 0 - 1) (by omega) (by omega)
      exact ⟨z, hz, by omega⟩
  have hno : ∀ x ∈ T, ∀ y ∈ T, pos x 0 < pos y 0 → ¬ (Lonely 1 pos T x (0, up) ∧ Lonely 1 pos T y (0, up)) := by
    rintro x hx y hy hlt ⟨h1, h2⟩
    obtain ⟨⟨z, hz, e⟩, w, hw, e'⟩ := key x hx y hy hlt
    cases up
    · exact h2 w hw ⟨by simpa using e', fun b hb hne => by have : b < 1 := hb; exact absurd (by omega) hne⟩
    · exact h1 z hz ⟨by simpa using e, fun b hb hne => by have : b < 1 := hb; exact absurd (by omega) hne⟩
  rw [Finset.card_le_one]
  intro x hx y hy
  obtain ⟨hx, hx1⟩ := Finset.mem_filter.1 hx
  obtain ⟨hy, hy1⟩ := Finset.mem_filter.1 hy
  refine G.grid.inj x ((hT x).1 hx).1 y ((hT y).1 hy).1 (fun b hb => ?_)
  have : b = 0 := by omega
  subst this
  rcases Nat.lt_trichotomy (pos x 0) (pos y 0) with h | h | h
  · exact absurd ⟨hx1, hy1⟩ (hno x hx y hy h)
  · exact h
  · exact absurd ⟨hy1, hx1⟩ (hno y hy x hx h)

/-- the coarse cell grown from an end of a block of a row is the block -/
theorem grown_row {E : IsoEnv W F} (hv : ValidCRS n E.g.rowPtr E.g.colInd) (hu : UniqueRows E.g.rowPtr E.g.colInd)
    (G : TileGrid B 1 ext n pos (Adj E.g.rowPtr E.g.colInd)) (hbnd : ∀ c < n, E.g.nBnd[c]? = some (sidesOut 1 ext (pos c)))
    (hmin2 : 2 ≤ E.minCard) (hmin : E.minCard ≤ E.goalCard) (hgoal : E.goalCard ≤ B) (hmax : E.maxCard = B)
    {agg : List Bool} {s order : Nat} {S : NSet}
    (hl : agg.length = n) (hb : TileSet B 1 n pos (fun x => agg[x]? = some true)) (hs : agg[s]? = some false)
    (hc : TileCorner B 1 pos (Adj E.g.rowPtr E.g.colInd) (fun x => agg[x]? = some true) s)
    (h : GrownCell E (GrownGreedily E) agg s order S) :
    ∀ x, x ∈ S ↔ x < n ∧ SameTile B 1 (pos x) (pos s) := by
  classical
  have hB2 := G.two
  have hB0 : 0 < B := by omega
  have hsn := lt_of_agg hs hl
  obtain ⟨d, hd, ho, -, -, hbig⟩ := h
  have hfr : ∀ y < n, SameTile B 1 (pos y) (pos s) → agg[y]? = some false := by
    intro y hy hys
    refine free_of_not hl hy (fun hyt => ?_)
    have := hb y hy s hsn hys hyt
    simp only [hs] at this
    cases this
  have hfree : ∀ x ∈ d.keySet, agg[x]? = some false := by
    intro x hx
    rw [NMap.mem_keySet, NMap.mem_keys] at hx
    obtain ⟨k, hk⟩ := hx
    obtain ⟨⟨⟨w, rfl, hw⟩, _⟩, h1, _⟩ := (hd x k).1 hk
    cases hw with
    | nil => omega
    | step _ h => exact h.2
  let T : Finset Nat := (Finset.range n).filter (fun x => SameTile B 1 (pos x) (pos s))
  have hT : ∀ x, x ∈ T ↔ x < n ∧ SameTile B 1 (pos x) (pos s) := fun x => by
    simp only [T, Finset.mem_filter, Finset.mem_range]
  have hcard := row_card G hsn hT
  have hsize : B ≤ d.size + 1 := by
    rcases ho with ho | ⟨_, ho⟩
    · rw [← hcard]
      have hsub : T ⊆ (s :: d.keys).toFinset := by
        intro x hx
        obtain ⟨h1, h2⟩ := (hT x).1 hx
        rw [List.mem_toFinset, List.mem_cons]
        exact (ho x ⟨_, s, rfl, G.walk (free := fun b => agg[b]? = some false) hsn hfr _ x h1 h2 rfl⟩).imp id NMap.mem_keySet.1
      refine Nat.le_trans (Finset.card_le_card hsub) (Nat.le_trans (List.toFinset_card_le _) ?_)
      rw [List.length_cons, NMap.size_eq_keys]
    · omega
  obtain ⟨xs, κ, m, ⟨f, hgr⟩, hh, hlen, hn, hκ, ⟨b1, b2, b3⟩, rfl⟩ := hbig (by omega)
  have hlenB : xs.length = B := by
    rw [hlen, hmax]
    exact Nat.min_eq_left hsize
  have hend := hc.1 0 (by omega)
  have hsub : ∀ x ∈ xs, x < n ∧ SameTile B 1 (pos x) (pos s) := by
    intro x hx
    obtain ⟨h1, h2, h3⟩ := row_seq G hsn hc hfree hgr hh x hx
    exact ⟨h1, same_one.2 ((co_iff hB0 hend).2 ⟨h2, by omega⟩)⟩
  have hall : ∀ x, x ∈ xs ↔ x < n ∧ SameTile B 1 (pos x) (pos s) := by
    have : xs.toFinset = T := by
      refine Finset.eq_of_subset_of_card_le (fun x hx => (hT x).2 (hsub x (List.mem_toFinset.1 hx))) ?_
      rw [hcard, List.toFinset_card_of_nodup hn, hlenB]
    intro x
    rw [← hT x, ← this, List.mem_toFinset]
  have hmB : m = B := by
    by_contra hne
    have h4 := b3 B (by omega) (by omega)
    simp only at h4
    have hnm := hn.sublist (List.take_sublist m xs)
    have hle : κ m ≤ 1 := compactness_le_dim G.grid hnm (hκ m b1 b2)
    have htB : xs.take B = xs := List.take_of_length_le (by omega)
    have hge : 1 ≤ κ B := by
      have hk := hκ B (by omega) (by omega)
      rw [htB] at hk
      obtain ⟨⟨x, hxs, hxk⟩, _⟩ := hk.2 (by rw [NSet.card_ofList hn]; omega)
      rw [nbShared_ofList hn] at hxk
      rw [← hxk]
      rw [NSet.mem_ofList] at hxs
      obtain ⟨hxn, hx⟩ := (hall x).1 hxs
      have hx := same_one.1 hx
      have hr := G.grid.range x hxn 0 (by omega)
      have e1 := Nat.div_add_mod (pos x 0) B
      have e2 := Nat.mod_lt (pos x 0) hB0
      obtain ⟨v, hv1, hv2⟩ : ∃ v, v / B = pos x 0 / B ∧ (pos x 0 + 1 = v ∨ v + 1 = pos x 0) := by
        by_cases h0 : pos x 0 % B = 0
        · refine ⟨pos x 0 + 1, ?_, Or.inl rfl⟩
          by_contra hne
          have := (cross hB0 (u := pos x 0) (fun e => hne e.symm)).1
          omega
        · refine ⟨pos x 0 - 1, ?_, Or.inr (by omega)⟩
          by_contra hne
          have := (cross hB0 (u := pos x 0 - 1) (by rw [show pos x 0 - 1 + 1 = pos x 0 by omega]; exact hne)).2
          rw [show pos x 0 - 1 + 1 = pos x 0 by omega] at this
          exact h0 this
      obtain ⟨y, hy, hy1, hy2⟩ := G.grid.move (a := 0) hxn (tile_lt hB0 hv1 hr (G.mult 0 (by omega)))
      have hy1 := hy1 (by omega)
      refine one_le_cnt (y := y) ((hall y).2 ⟨hy, same_one.2 (by rw [hy1, hv1, hx])⟩) (adj_iff_rowOf.1 ?_)
      exact (G.grid.adj x y).2 ⟨hxn, hy, 0, by omega, by omega, fun b hb hne => absurd (by omega) hne⟩
    have hin : ∀ j, ∀ x ∈ NSet.ofList (xs.take j), x < n := by
      intro j x hx
      rw [NSet.mem_ofList] at hx
      exact (hsub x (List.mem_of_mem_take hx)).1
    have f1 : externalFaces E.g (NSet.ofList (xs.take B)) ≤ 2 := by
      rw [externalFaces_eq hv hu G.grid hbnd (hin _)]
      refine row_faces (s := s) G (fun y => ?_)
      rw [List.mem_toFinset, ← NSet.mem_def, NSet.mem_ofList, htB]
      exact hall y
    have f2 : 2 ≤ externalFaces E.g (NSet.ofList (xs.take m)) := by
      rw [externalFaces_eq hv hu G.grid hbnd (hin _)]
      have := shadows_le (D := 1) (pos := pos) (T := (NSet.ofList (xs.take m)).elems.toFinset)
      simp only [Finset.sum_range_succ, Finset.sum_range_zero, Nat.zero_add] at this
      have hne : 1 ≤ ((NSet.ofList (xs.take m)).elems.toFinset.image (shadow 1 pos 0)).card := by
        refine Finset.card_pos.2 (Finset.Nonempty.image ⟨s, ?_⟩ _)
        rw [List.mem_toFinset, ← NSet.mem_def, NSet.mem_ofList]
        cases xs with
        | nil => cases hh
        | cons a l =>
          cases hh
          obtain ⟨q, rfl⟩ : ∃ q, m = q + 1 := ⟨m - 1, by omega⟩
          rw [List.take_succ_cons]
          exact List.mem_cons_self
      omega
    omega
  subst hmB
  intro x
  rw [NSet.mem_ofList, List.take_of_length_le (by omega)]
  exact hall x

end CoMMA.Tile
