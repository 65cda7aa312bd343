import Verif.Lemmas.TileRow
/-! # Rows of cells: the coarse cell grown from an end of the free cells -/

set_option linter.unusedSectionVars false

namespace CoMMA.Row

variable {W F : Type} [Num W]
variable {ext : Nat → Nat} {n : Nat} {pos : Nat → Nat → Nat} {R : Nat → Nat → Prop}

/-- two cells of a row are neighbours if and only if they are next to each other -/
theorem adj_iff (G : IsGrid 1 ext n pos R) {x y : Nat} :
    R x y ↔ x < n ∧ y < n ∧ (pos x 0 + 1 = pos y 0 ∨ pos y 0 + 1 = pos x 0) := by
  rw [G.adj x y]
  constructor
  · rintro ⟨h1, h2, ax, hax, h3, _⟩
    have : ax = 0 := by omega
    subst this
    exact ⟨h1, h2, h3⟩
  · rintro ⟨h1, h2, h3⟩
    exact ⟨h1, h2, 0, by omega, h3, fun b hb hne => absurd (by omega) hne⟩

theorem inj (G : IsGrid 1 ext n pos R) {x y : Nat} (hx : x < n) (hy : y < n) (h : pos x 0 = pos y 0) : x = y :=
  G.inj x hx y hy (fun b hb => by
    have : b = 0 := by omega
    subst this
    exact h)

theorem get (G : IsGrid 1 ext n pos R) {v : Nat} (h : v < ext 0) : ∃ x < n, pos x 0 = v := by
  obtain ⟨x, hx, h⟩ := G.surj (fun _ => v) (fun ax hax => by
    have : ax = 0 := by omega
    subst this
    exact h)
  exact ⟨x, hx, h 0 (by omega)⟩

/-- how far a place is from the end `lo` or from the other end of the free cells, which are those from `lo` to before `hi` -/
def off (left : Bool) (lo hi v : Nat) : Nat := if left then v - lo else hi - 1 - v

/-- the cells taken are next to each other, from the end on -/
theorem seq {E : IsoEnv W F} (G : IsGrid 1 ext n pos (Adj E.g.rowPtr E.g.colInd)) {lo hi s : Nat} {left : Bool} {d : NMap Nat}
    (hsn : s < n) (hs1 : lo ≤ pos s 0) (hs2 : pos s 0 < hi) (hs : off left lo hi (pos s 0) = 0)
    (hfree : ∀ x ∈ d.keySet, lo ≤ pos x 0 ∧ pos x 0 < hi) {h : Nat} {xs : List Nat} {f : F} (hg : GreedySeq E d h xs f) :
    xs.head? = some s → ∀ x ∈ xs, x < n ∧ lo ≤ pos x 0 ∧ pos x 0 < hi ∧ off left lo hi (pos x 0) < xs.length := by
  induction hg with
  | @seed t f h =>
    intro hh x hx
    rw [List.mem_singleton] at hx
    subst hx
    cases hh
    exact ⟨hsn, hs1, hs2, by rw [hs]; simp⟩
  | @next xs l f f' c m hg hn hb ih =>
    intro hh x hx
    have ih := ih (head_of_snoc hh hg.not_nil)
    rw [List.length_append, List.length_singleton]
    rcases List.mem_append.1 hx with hx | hx
    · have := ih x hx
      omega
    · rw [List.mem_singleton] at hx
      subst hx
      obtain ⟨hk, _, y, hy, hR⟩ := cands_inFront hn hb.spec.1
      obtain ⟨_, hxn, hstep⟩ := (adj_iff G).1 hR
      obtain ⟨hyn, h1, h2, h3⟩ := ih y hy
      obtain ⟨h4, h5⟩ := hfree x hk
      refine ⟨hxn, h4, h5, ?_⟩
      unfold off at h3 ⊢
      cases left <;> simp at h3 ⊢ <;> omega

open Classical in
/-- cells next to each other have at most two faces outside -/
theorem faces (G : IsGrid 1 ext n pos R) {T : Finset Nat} (hT : ∀ x ∈ T, x < n)
    (hcon : ∀ x ∈ T, ∀ y ∈ T, ∀ v, pos x 0 ≤ v → v ≤ pos y 0 → ∃ z ∈ T, pos z 0 = v) :
    ∑ x ∈ T, ((dirs 1).filter (Lonely 1 pos T x)).card ≤ 2 := by
  have h := Finset.sum_card_bipartiteAbove_eq_sum_card_bipartiteBelow (s := T) (t := dirs 1) (Lonely 1 pos T)
  unfold Finset.bipartiteAbove Finset.bipartiteBelow at h
  rw [h]
  refine Nat.le_trans (Finset.sum_le_card_nsmul _ _ 1 (fun d hd => ?_)) (by decide)
  obtain ⟨a, up⟩ := d
  have ha : a < 1 := mem_dirs.1 hd
  have ha0 : a = 0 := by omega
  subst ha0
  have hno : ∀ x ∈ T, ∀ y ∈ T, pos x 0 < pos y 0 → ¬ (Lonely 1 pos T x (0, up) ∧ Lonely 1 pos T y (0, up)) := by
    rintro x hx y hy hlt ⟨h1, h2⟩
    obtain ⟨z, hz, e⟩ := hcon x hx y hy (pos x 0 + 1) (by omega) (by omega)
    obtain ⟨w, hw, e'⟩ := hcon x hx y hy (pos y 0 - 1) (by omega) (by omega)
    cases up
    · exact h2 w hw ⟨by simp; omega, fun b hb hne => by have : b < 1 := hb; exact absurd (by omega) hne⟩
    · exact h1 z hz ⟨by simp; omega, fun b hb hne => by have : b < 1 := hb; exact absurd (by omega) hne⟩
  rw [Finset.card_le_one]
  intro x hx y hy
  obtain ⟨hx, hx1⟩ := Finset.mem_filter.1 hx
  obtain ⟨hy, hy1⟩ := Finset.mem_filter.1 hy
  refine inj G (hT x hx) (hT y hy) ?_
  rcases Nat.lt_trichotomy (pos x 0) (pos y 0) with h | h | h
  · exact absurd ⟨hx1, hy1⟩ (hno x hx y hy h)
  · exact h
  · exact absurd ⟨hy1, hx1⟩ (hno y hy x hx h)

/-- all the free cells are reached from an end -/
theorem walk {rowPtr colInd : List Nat} (G : IsGrid 1 ext n pos (Adj rowPtr colInd)) {agg : List Bool} {lo hi s : Nat} {left : Bool}
    (hhi : hi ≤ ext 0) (hfr : ∀ x < n, (agg[x]? = some false ↔ lo ≤ pos x 0 ∧ pos x 0 < hi)) (hsn : s < n)
    (hs1 : lo ≤ pos s 0) (hs2 : pos s 0 < hi) (hs : off left lo hi (pos s 0) = 0) :
    ∀ (k x : Nat), x < n → lo ≤ pos x 0 → pos x 0 < hi → off left lo hi (pos x 0) = k →
      Walk (FreeAdj rowPtr colInd agg) k s x := by
  intro k
  induction k with
  | zero =>
    intro x hx h1 h2 h3
    have : x = s := by
      refine inj G hx hsn ?_
      unfold off at h3 hs
      cases left <;> simp at h3 hs <;> omega
    subst this
    exact Walk.nil _
  | succ k ih =>
    intro x hx h1 h2 h3
    obtain ⟨v, hv1, hv2, hv3, hv4⟩ : ∃ v, lo ≤ v ∧ v < hi ∧ off left lo hi v = k ∧ (v + 1 = pos x 0 ∨ pos x 0 + 1 = v) := by
      unfold off at h3 ⊢
      cases left
      · exact ⟨pos x 0 + 1, by omega, by simp at h3; omega, by simp at h3 ⊢; omega, by omega⟩
      · exact ⟨pos x 0 - 1, by simp at h3; omega, by omega, by simp at h3 ⊢; omega, by simp at h3; omega⟩
    obtain ⟨y, hy, rfl⟩ := get G (v := v) (by omega)
    exact Walk.step (ih y hy hv1 hv2 hv3) ⟨(adj_iff G).2 ⟨hy, hx, hv4⟩, (hfr x hx).2 ⟨h1, h2⟩⟩

/-- the coarse cell grown from an end of the free cells: the `max_card` cells from there on, or all of them if there are fewer -/
theorem grown {E : IsoEnv W F} (hv : ValidCRS n E.g.rowPtr E.g.colInd) (hu : UniqueRows E.g.rowPtr E.g.colInd)
    (G : IsGrid 1 ext n pos (Adj E.g.rowPtr E.g.colInd)) (hbnd : ∀ c < n, E.g.nBnd[c]? = some (sidesOut 1 ext (pos c)))
    (hmin2 : 2 ≤ E.minCard) (hmin : E.minCard ≤ E.goalCard) (hgoal : E.goalCard ≤ E.maxCard)
    {agg : List Bool} {s order lo hi : Nat} {left : Bool} {S : NSet} (hl : agg.length = n) (hhi : hi ≤ ext 0)
    (hfr : ∀ x < n, (agg[x]? = some false ↔ lo ≤ pos x 0 ∧ pos x 0 < hi)) (hsf : agg[s]? = some false)
    (hs : off left lo hi (pos s 0) = 0) (h : GrownCell E (GrownGreedily E) agg s order S) :
    ∀ x, x ∈ S ↔ x < n ∧ lo ≤ pos x 0 ∧ pos x 0 < hi ∧ off left lo hi (pos x 0) < E.maxCard := by
  classical
  have hsn := lt_of_agg hsf hl
  obtain ⟨hs1, hs2⟩ := (hfr s hsn).1 hsf
  obtain ⟨d, hd, ho, -, hsmall, hbig⟩ := h
  have hkey : ∀ x ∈ d.keySet, agg[x]? = some false := by
    intro x hx
    rw [NMap.mem_keySet, NMap.mem_keys] at hx
    obtain ⟨k, hk⟩ := hx
    obtain ⟨⟨⟨w, rfl, hw⟩, _⟩, h1, _⟩ := (hd x k).1 hk
    cases hw with
    | nil => omega
    | step _ h => exact h.2
  have hfree : ∀ x ∈ d.keySet, lo ≤ pos x 0 ∧ pos x 0 < hi := fun x hx => (hfr x (lt_of_agg (hkey x hx) hl)).1 (hkey x hx)
  let T : Finset Nat := (Finset.range n).filter (fun x => lo ≤ pos x 0 ∧ pos x 0 < hi)
  have hT : ∀ x, x ∈ T ↔ x < n ∧ lo ≤ pos x 0 ∧ pos x 0 < hi := fun x => by
    simp only [T, Finset.mem_filter, Finset.mem_range]
  -- if few cells are found they are all the free ones
  have hfew : d.size + 1 < E.maxCard → (∀ x ∈ T, x = s ∨ x ∈ d.keySet) ∧ T.card ≤ d.size + 1 := by
    intro hlt
    have hall : ∀ x ∈ T, x = s ∨ x ∈ d.keySet := by
      intro x hx
      obtain ⟨h1, h2, h3⟩ := (hT x).1 hx
      rcases ho with ho | ⟨_, ho⟩
      · exact ho x ⟨_, s, rfl, walk G hhi hfr hsn hs1 hs2 hs _ x h1 h2 h3 rfl⟩
      · omega
    refine ⟨hall, ?_⟩
    have hsub : T ⊆ (s :: d.keys).toFinset := by
      intro x hx
      rw [List.mem_toFinset, List.mem_cons]
      exact (hall x hx).imp id NMap.mem_keySet.1
    refine Nat.le_trans (Finset.card_le_card hsub) (Nat.le_trans (List.toFinset_card_le _) ?_)
    rw [List.length_cons, NMap.size_eq_keys]
  by_cases hlt : d.size + 1 < E.goalCard
  · obtain ⟨hall, hcard⟩ := hfew (by omega)
    have hN : hi - lo ≤ T.card := by
      have hget : ∀ i, i < hi - lo → ∃ c, c < n ∧ pos c 0 = lo + i := fun i hi => get G (by omega)
      choose! cell hcell using hget
      have := Finset.card_le_card_of_injOn (s := Finset.range (hi - lo)) (t := T) cell (by
        intro i hi
        simp only [Finset.coe_range, Set.mem_Iio] at hi
        have := hcell i hi
        exact Finset.mem_coe.2 ((hT _).2 ⟨this.1, by omega, by omega⟩)) (by
        intro i hi j hj he
        simp only [Finset.coe_range, Set.mem_Iio] at hi hj
        have h1 := (hcell i hi).2
        have h2 := (hcell j hj).2
        rw [he] at h1
        omega)
      rwa [Finset.card_range] at this
    intro x
    rw [hsmall hlt x]
    constructor
    · rintro (rfl | hx)
      · exact ⟨hsn, hs1, hs2, by omega⟩
      · have := hfree x hx
        refine ⟨lt_of_agg (hkey x hx) hl, this.1, this.2, ?_⟩
        unfold off
        split <;> omega
    · rintro ⟨h1, h2, h3, _⟩
      exact hall x ((hT x).2 ⟨h1, h2, h3⟩)
  · obtain ⟨xs, κ, m, ⟨f, hgr⟩, hh, hlen, hn, hκ, ⟨b1, b2, b3⟩, rfl⟩ := hbig (by omega)
    have hseq := seq G hsn hs1 hs2 hs hfree hgr hh
    have hL2 : 2 ≤ xs.length := by omega
    have hall : ∀ x, x ∈ xs ↔ x < n ∧ lo ≤ pos x 0 ∧ pos x 0 < hi ∧ off left lo hi (pos x 0) < E.maxCard := by
      by_cases hbm : E.maxCard ≤ d.size + 1
      · have hlen : xs.length = E.maxCard := by rw [hlen]; exact Nat.min_eq_left hbm
        let U : Finset Nat := T.filter (fun x => off left lo hi (pos x 0) < E.maxCard)
        have hU : xs.toFinset = U := by
          refine Finset.eq_of_subset_of_card_le (fun x hx => ?_) ?_
          · obtain ⟨h1, h2, h3, h4⟩ := hseq x (List.mem_toFinset.1 hx)
            exact Finset.mem_filter.2 ⟨(hT x).2 ⟨h1, h2, h3⟩, by omega⟩
          · rw [List.toFinset_card_of_nodup hn, hlen]
            have := Finset.card_le_card_of_injOn (s := U) (t := Finset.range E.maxCard) (fun x => off left lo hi (pos x 0)) (fun x hx => by
              simp only [Finset.coe_range, Set.mem_Iio]
              exact (Finset.mem_filter.1 hx).2) (by
              intro x hx y hy hxy
              have hx := (hT x).1 (Finset.mem_filter.1 hx).1
              have hy := (hT y).1 (Finset.mem_filter.1 hy).1
              refine inj G hx.1 hy.1 ?_
              simp only [off] at hxy
              split at hxy <;> omega)
            rwa [Finset.card_range] at this
        intro x
        rw [← List.mem_toFinset, hU, Finset.mem_filter, hT]
        tauto
      · have hlen : xs.length = d.size + 1 := by rw [hlen]; exact Nat.min_eq_right (by omega)
        obtain ⟨_, hcard⟩ := hfew (by omega)
        have hU : xs.toFinset = T := by
          refine Finset.eq_of_subset_of_card_le (fun x hx => ?_) ?_
          · obtain ⟨h1, h2, h3, _⟩ := hseq x (List.mem_toFinset.1 hx)
            exact (hT x).2 ⟨h1, h2, h3⟩
          · rw [List.toFinset_card_of_nodup hn, hlen]
            exact hcard
        intro x
        constructor
        · intro hx
          have := hseq x hx
          exact ⟨this.1, this.2.1, this.2.2.1, by omega⟩
        · rintro ⟨h1, h2, h3, _⟩
          rw [← List.mem_toFinset, hU]
          exact (hT x).2 ⟨h1, h2, h3⟩
    have hcon : ∀ x ∈ xs, ∀ y ∈ xs, ∀ v, pos x 0 ≤ v → v ≤ pos y 0 → ∃ z ∈ xs, pos z 0 = v := by
      intro x hx y hy v h1 h2
      obtain ⟨_, a1, a2, a3⟩ := (hall x).1 hx
      obtain ⟨_, c1, c2, c3⟩ := (hall y).1 hy
      obtain ⟨z, hz, rfl⟩ := get G (v := v) (by omega)
      refine ⟨z, (hall z).2 ⟨hz, by omega, by omega, ?_⟩, rfl⟩
      unfold off at a3 c3 ⊢
      cases left <;> simp at a3 c3 ⊢ <;> omega
    have hmB : m = xs.length := by
      by_contra hne
      have h4 := b3 xs.length (by omega) (by omega)
      simp only at h4
      have hnm := hn.sublist (List.take_sublist m xs)
      have hle : κ m ≤ 1 := compactness_le_dim G hnm (hκ m b1 b2)
      have htB : xs.take xs.length = xs := List.take_length
      have hge : 1 ≤ κ xs.length := by
        have hk := hκ xs.length (by omega) (by omega)
        rw [htB] at hk
        obtain ⟨⟨x, hxs, hxk⟩, _⟩ := hk.2 (by rw [NSet.card_ofList hn]; omega)
        rw [nbShared_ofList hn] at hxk
        rw [← hxk]
        rw [NSet.mem_ofList] at hxs
        obtain ⟨y, hy, hyx⟩ : ∃ y ∈ xs, y ≠ x := by
          match xs, hL2, hn with
          | a :: b :: l, _, hn =>
            by_cases hax : a = x
            · refine ⟨b, by simp, fun e => ?_⟩
              rw [hax, e] at hn
              simp at hn
            · exact ⟨a, by simp, hax⟩
        have hxn := ((hall x).1 hxs).1
        have hne : pos y 0 ≠ pos x 0 := fun e => hyx (inj G ((hall y).1 hy).1 hxn e)
        obtain ⟨z, hz, hzx⟩ : ∃ z ∈ xs, pos x 0 + 1 = pos z 0 ∨ pos z 0 + 1 = pos x 0 := by
          rcases Nat.lt_or_gt_of_ne hne with h | h
          · obtain ⟨z, hz, e⟩ := hcon y hy x hxs (pos x 0 - 1) (by omega) (by omega)
            exact ⟨z, hz, Or.inr (by omega)⟩
          · obtain ⟨z, hz, e⟩ := hcon x hxs y hy (pos x 0 + 1) (by omega) (by omega)
            exact ⟨z, hz, Or.inl (by omega)⟩
        exact Tile.one_le_cnt (y := z) hz (adj_iff_rowOf.1 ((adj_iff G).2 ⟨hxn, ((hall z).1 hz).1, hzx⟩))
      have hin : ∀ j, ∀ x ∈ NSet.ofList (xs.take j), x < n := by
        intro j x hx
        rw [NSet.mem_ofList] at hx
        exact ((hall x).1 (List.mem_of_mem_take hx)).1
      have hmem : ∀ y, y ∈ (NSet.ofList (xs.take xs.length)).elems.toFinset ↔ y ∈ xs := by
        intro y
        rw [List.mem_toFinset, ← NSet.mem_def, NSet.mem_ofList, htB]
      have f1 : externalFaces E.g (NSet.ofList (xs.take xs.length)) ≤ 2 := by
        rw [externalFaces_eq hv hu G hbnd (hin _)]
        refine faces G (fun y hy => ((hall y).1 ((hmem y).1 hy)).1) ?_
        intro x hx y hy v h1 h2
        obtain ⟨z, hz, e⟩ := hcon x ((hmem x).1 hx) y ((hmem y).1 hy) v h1 h2
        exact ⟨z, (hmem z).2 hz, e⟩
      have f2 : 2 ≤ externalFaces E.g (NSet.ofList (xs.take m)) := by
        rw [externalFaces_eq hv hu G hbnd (hin _)]
        have := shadows_le (D := 1) (pos := pos) (T := (NSet.ofList (xs.take m)).elems.toFinset)
        simp only [Finset.sum_range_succ, Finset.sum_range_zero, Nat.zero_add] at this
        have hne : 1 ≤ ((NSet.ofList (xs.take m)).elems.toFinset.image (shadow 1 pos 0)).card := by
          refine Finset.card_pos.2 (Finset.Nonempty.image ⟨s, ?_⟩ _)
          rw [List.mem_toFinset, ← NSet.mem_def, NSet.mem_ofList]
          cases xs with
          | nil => cases hh
          | cons a l =>
            cases hh
            obtain ⟨q, rfl⟩ : ∃ q, m = q + 1 := ⟨m - 1, by omega⟩
            rw [List.take_succ_cons]
            exact List.mem_cons_self
        omega
      omega
    subst hmB
    intro x
    rw [NSet.mem_ofList, List.take_length]
    exact hall x

end CoMMA.Row
