import Verif.Lemmas.TileBlock
/-! # Square blocks of any width: the size chosen -/

set_option linter.unusedSectionVars false

namespace CoMMA.Tile

variable {W F : Type} [Num W]
variable {B : Nat} {ext : Nat → Nat} {n : Nat} {pos : Nat → Nat → Nat} {R : Nat → Nat → Prop}

open Classical in
/-- a side of a block has as many faces as the block is wide -/
theorem side_le (G : TileGrid B 2 ext n pos R) {T : Finset Nat} {s : Nat}
    (hT : ∀ x, x ∈ T ↔ x < n ∧ SameTile B 2 (pos x) (pos s)) {d : Nat × Bool} (hd : d ∈ dirs 2) :
    (T.filter (fun x => Lonely 2 pos T x d)).card ≤ B := by
  have hB0 : 0 < B := by have := G.two; omega
  obtain ⟨a, up⟩ := d
  have ha : a < 2 := mem_dirs.1 hd
  -- the cells of the side are at the end of the block
  have hedge : ∀ x ∈ T.filter (fun x => Lonely 2 pos T x (a, up)), pos x a % B = if up then B - 1 else 0 := by
    intro x hx
    obtain ⟨hxT, hxl⟩ := Finset.mem_filter.1 hx
    obtain ⟨hxn, hxs⟩ := (hT x).1 hxT
    have hxr := G.grid.range x hxn a ha
    have h1 := Nat.div_add_mod (pos x a) B
    have h2 := Nat.mod_lt (pos x a) hB0
    have hgo : ∀ v, v / B = pos x a / B → (if up then pos x a + 1 = v else v + 1 = pos x a) → False := by
      intro v hv hup
      have hvl := tile_lt hB0 hv hxr (G.mult a ha)
      obtain ⟨y, hy, hy1, hy2⟩ := G.grid.move (a := a) hxn hvl
      have hy1 := hy1 ha
      refine hxl y ((hT y).2 ⟨hy, ?_⟩) ⟨?_, hy2⟩
      · intro b hb
        by_cases hba : b = a
        · subst hba; rw [hy1, hv]; exact hxs b hb
        · rw [hy2 b hb hba]; exact hxs b hb
      · simp only [hy1]; exact hup
    cases up
    · simp only [Bool.false_eq_true, if_false] at hgo ⊢
      by_contra hne
      refine hgo (pos x a - 1) ?_ (by omega)
      by_contra hd
      have := (cross hB0 (u := pos x a - 1) (by rw [show pos x a - 1 + 1 = pos x a by omega]; exact hd)).2
      rw [show pos x a - 1 + 1 = pos x a by omega] at this
      exact hne this
    · simp only [if_true] at hgo ⊢
      by_contra hne
      refine hgo (pos x a + 1) ?_ rfl
      by_contra hd
      have := (cross hB0 (u := pos x a) (fun e => hd e.symm)).1
      omega
  have := Finset.card_le_card_of_injOn (s := T.filter (fun x => Lonely 2 pos T x (a, up))) (t := Finset.range B)
    (fun x => pos x (1 - a) % B) (fun x _ => by
      simp only [Finset.coe_range, Set.mem_Iio]
      exact Nat.mod_lt _ hB0) (by
    intro x hx y hy hxy
    have hx : x ∈ T.filter (fun x => Lonely 2 pos T x (a, up)) := hx
    have hy : y ∈ T.filter (fun x => Lonely 2 pos T x (a, up)) := hy
    have hxy : pos x (1 - a) % B = pos y (1 - a) % B := hxy
    have ex := hedge x hx
    have ey := hedge y hy
    obtain ⟨hxn, hxs⟩ := (hT x).1 (Finset.mem_filter.1 hx).1
    obtain ⟨hyn, hys⟩ := (hT y).1 (Finset.mem_filter.1 hy).1
    apply G.grid.inj x hxn y hyn
    intro b hb
    have hq := (hxs b hb).trans (hys b hb).symm
    have h1 := Nat.div_add_mod (pos x b) B
    have h2 := Nat.div_add_mod (pos y b) B
    rw [hq] at h1
    by_cases hba : b = a
    · subst hba; omega
    · have : b = 1 - a := by omega
      subst this; omega)
  rwa [Finset.card_range] at this

open Classical in
/-- faces of a block -/
theorem block_faces (G : TileGrid B 2 ext n pos R) {T : Finset Nat} {s : Nat}
    (hT : ∀ x, x ∈ T ↔ x < n ∧ SameTile B 2 (pos x) (pos s)) :
    ∑ x ∈ T, ((dirs 2).filter (Lonely 2 pos T x)).card ≤ 4 * B := by
  have h := Finset.sum_card_bipartiteAbove_eq_sum_card_bipartiteBelow (s := T) (t := dirs 2) (Lonely 2 pos T)
  unfold Finset.bipartiteAbove Finset.bipartiteBelow at h
  rw [h]
  refine Nat.le_trans (Finset.sum_le_card_nsmul _ _ B (fun d hd => side_le G hT hd)) ?_
  have : (dirs 2).card = 4 := by decide
  rw [this]
  exact Nat.le_refl _

/-- smaller sets cost more -/
theorem smaller_cost {r c j : Nat} (h : j ≤ r * c) (h2 : 2 ≤ j) (hB : 3 ≤ B) (hj : j < B * B) : 4 * B + j < 2 * (r + c) + B * B := by
  have h4 : 4 * (r * c) ≤ (r + c) * (r + c) := by
    zify
    nlinarith [sq_nonneg ((r : Int) - c)]
  by_cases ht : 2 * B ≤ r + c
  · omega
  · have ht3 : 3 ≤ r + c := by
      by_contra hlt
      have : r + c ≤ 2 := by omega
      have := Nat.mul_le_mul this this
      omega
    generalize r + c = t at *
    have h5 : 4 * j ≤ t * t := by omega
    zify at *
    nlinarith [mul_pos (show (0 : Int) < 2 * B - t by omega) (show (0 : Int) < 2 * B + t - 8 by omega)]

/-- larger sets have more faces -/
theorem larger_faces {r c j : Nat} (h : j ≤ r * c) (hj : B * B < j) : 2 * B + 1 ≤ r + c := by
  have h4 : 4 * (r * c) ≤ (r + c) * (r + c) := by
    zify
    nlinarith [sq_nonneg ((r : Int) - c)]
  by_contra hlt
  have h5 : r + c ≤ 2 * B := by omega
  have h6 := Nat.mul_le_mul h5 h5
  have h7 : 2 * B * (2 * B) = 4 * (B * B) := by ring
  omega

/-- cells of a block have two neighbours in it -/
theorem block_compact {g : Graph W} {d : NMap Nat} {s : Nat} {a b : Nat → Int} (h : Quad g d B s a b) (hB : 2 ≤ B)
    {xs : List Nat} (hn : xs.Nodup) (hl : xs.length = B * B)
    (hx : ∀ x, x ∈ xs ↔ Known d s x ∧ 0 ≤ a x ∧ a x < B ∧ 0 ≤ b x ∧ b x < B) {k : Nat}
    (hk : IsCompactness g.rowPtr g.colInd (NSet.ofList xs) k) : 2 ≤ k := by
  have hcard : 1 < (NSet.ofList xs).card := by
    rw [NSet.card_ofList hn, hl]
    have := Nat.mul_le_mul hB hB
    omega
  obtain ⟨⟨x, hxs, hxk⟩, _⟩ := hk.2 hcard
  rw [nbShared_ofList hn] at hxk
  rw [← hxk]
  rw [NSet.mem_ofList] at hxs
  obtain ⟨kx, h1, h2, h3, h4⟩ := (hx x).1 hxs
  have hy : ∃ y, Known d s y ∧ b y = b x ∧ (a x = a y + 1 ∨ a y = a x + 1) ∧ 0 ≤ a y ∧ a y < B := by
    by_cases h0 : a x = 0
    · obtain ⟨y, e1, e2, e3⟩ := h.get (i := 1) (j := (b x).toNat) (by omega) (by omega)
      exact ⟨y, e1, by omega, by omega, by omega, by omega⟩
    · obtain ⟨y, e1, e2, e3⟩ := h.get (i := (a x - 1).toNat) (j := (b x).toNat) (by omega) (by omega)
      exact ⟨y, e1, by omega, by omega, by omega, by omega⟩
  have hz : ∃ z, Known d s z ∧ a z = a x ∧ (b x = b z + 1 ∨ b z = b x + 1) ∧ 0 ≤ b z ∧ b z < B := by
    by_cases h0 : b x = 0
    · obtain ⟨y, e1, e2, e3⟩ := h.get (i := (a x).toNat) (j := 1) (by omega) (by omega)
      exact ⟨y, e1, by omega, by omega, by omega, by omega⟩
    · obtain ⟨y, e1, e2, e3⟩ := h.get (i := (a x).toNat) (j := (b x - 1).toNat) (by omega) (by omega)
      exact ⟨y, e1, by omega, by omega, by omega, by omega⟩
  obtain ⟨y, y1, y2, y3, y4, y5⟩ := hy
  obtain ⟨z, z1, z2, z3, z4, z5⟩ := hz
  refine two_le_cnt (y := y) (z := z) ((hx y).2 ⟨y1, by omega, by omega, by omega, by omega⟩)
    ((hx z).2 ⟨z1, by omega, by omega, by omega, by omega⟩) (fun e => by subst e; omega) ?_ ?_
  · exact (h.adj x y kx y1).2 (Or.inr ⟨by omega, y3⟩)
  · exact (h.adj x z kx z1).2 (Or.inl ⟨by omega, z3⟩)

/-- the size of a block is chosen -/
theorem tile_size {g : Graph W} (hv : ValidCRS n g.rowPtr g.colInd) (hu : UniqueRows g.rowPtr g.colInd)
    (G : TileGrid B 2 ext n pos (Adj g.rowPtr g.colInd)) (hb : ∀ c < n, g.nBnd[c]? = some (sidesOut 2 ext (pos c)))
    (hB : 3 ≤ B) {xs : List Nat} (hn : xs.Nodup) (hlt : ∀ x ∈ xs, x < n) {s : Nat}
    (hbl : ∀ x, x ∈ xs.take (B * B) ↔ x < n ∧ SameTile B 2 (pos x) (pos s)) {lo goal m : Nat} {κ : Nat → Nat}
    (hlo : lo ≤ B * B) (hlen : B * B ≤ xs.length)
    (hhi : xs.length ≤ B * B + 1 ∨ (xs.length ≤ B * B + 2 ∧ goal = B * B))
    (hκ : ∀ j, lo ≤ j → j ≤ xs.length → IsCompactness g.rowPtr g.colInd (NSet.ofList (xs.take j)) (κ j))
    (hc : 2 ≤ κ (B * B))
    (h : BestSize lo xs.length goal κ (fun j => (externalFaces g (NSet.ofList (xs.take j)) : Int) - j) m) : m = B * B := by
  classical
  obtain ⟨h1, h2, h3⟩ := h
  have h4 := h3 (B * B) hlo hlen
  by_contra hne
  have hnm := hn.sublist (List.take_sublist m xs)
  have hle : κ m ≤ 2 := compactness_le_dim G.grid hnm (hκ m h1 h2)
  have hset : ∀ j, (NSet.ofList (xs.take j)).elems.toFinset.card = min j xs.length := by
    intro j
    rw [List.toFinset_card_of_nodup (NSet.nodup _), ← List.length_take]
    exact (NSet.elems_perm (hn.sublist (List.take_sublist j xs)) (fun a => by simp)).length_eq
  have hin : ∀ j, ∀ x ∈ NSet.ofList (xs.take j), x < n := by
    intro j x hx
    rw [NSet.mem_ofList] at hx
    exact hlt x (List.mem_of_mem_take hx)
  have e1 : externalFaces g (NSet.ofList (xs.take (B * B))) ≤ 4 * B := by
    rw [externalFaces_eq hv hu G.grid hb (hin _)]
    refine block_faces (s := s) G (fun y => ?_)
    rw [List.mem_toFinset, ← NSet.mem_def, NSet.mem_ofList]
    exact hbl y
  obtain ⟨r, c, hrc, e2⟩ : ∃ r c, m ≤ r * c ∧ 2 * (r + c) ≤ externalFaces g (NSet.ofList (xs.take m)) := by
    refine ⟨((NSet.ofList (xs.take m)).elems.toFinset.image (shadow 2 pos 0)).card,
      ((NSet.ofList (xs.take m)).elems.toFinset.image (shadow 2 pos 1)).card, ?_, ?_⟩
    · have := area_le (pos := pos) G.grid (T := (NSet.ofList (xs.take m)).elems.toFinset)
        (fun x hx => hin m x (List.mem_toFinset.1 hx))
      rw [hset, Nat.min_eq_left h2] at this
      exact this
    · rw [externalFaces_eq hv hu G.grid hb (hin _)]
      have := shadows_le (D := 2) (pos := pos) (T := (NSet.ofList (xs.take m)).elems.toFinset)
      simp only [Finset.sum_range_succ, Finset.sum_range_zero, Nat.zero_add] at this
      exact this
  have hm2 : 2 ≤ m := by
    by_contra hm
    have := (hκ m h1 h2).1 (by rw [NSet.card_ofList hnm, List.length_take]; omega)
    omega
  simp only at h4
  rcases Nat.lt_or_ge m (B * B) with hm | hm
  · have := smaller_cost hrc hm2 hB hm
    generalize B * B = q at *
    omega
  · have := larger_faces (B := B) hrc (by omega)
    generalize B * B = q at *
    omega

/-- the coarse cell grown from a corner is its block -/
theorem grown_tile {E : IsoEnv W F} (hv : ValidCRS n E.g.rowPtr E.g.colInd) (hu : UniqueRows E.g.rowPtr E.g.colInd)
    (G : TileGrid B 2 ext n pos (Adj E.g.rowPtr E.g.colInd)) (hbnd : ∀ c < n, E.g.nBnd[c]? = some (sidesOut 2 ext (pos c)))
    (hdim : E.g.dim = 2) (hB : 3 ≤ B) (hext : E.nbh = .extended) (hfc : E.fcIter ≤ 1) (hmin : E.minCard ≤ E.goalCard)
    (hgoal : E.goalCard ≤ B * B) (hmax : B * B ≤ E.maxCard)
    (hlarge : E.maxCard ≤ B * B + 1 ∨ (E.maxCard ≤ B * B + 2 ∧ E.goalCard = B * B))
    {agg : List Bool} {s order : Nat} {S : NSet}
    (hl : agg.length = n) (hb : TileSet B 2 n pos (fun x => agg[x]? = some true)) (hs : agg[s]? = some false)
    (hc : TileCorner B 2 pos (Adj E.g.rowPtr E.g.colInd) (fun x => agg[x]? = some true) s)
    (h : GrownCell E (GrownGreedily E) agg s order S) :
    ∀ x, x ∈ S ↔ x < n ∧ SameTile B 2 (pos x) (pos s) := by
  obtain ⟨d, hd, ho, -, -, hbig⟩ := h
  obtain ⟨hq, hmem⟩ := quad_of_corner G hl hb hs hc hd (by
    rcases ho with ho | ⟨ho, _⟩
    · exact Or.inl ho
    · right
      rw [hdim] at ho
      have : 4 * (B - 1) ≤ B * B := by
        obtain ⟨k, rfl⟩ : ∃ k, B = k + 3 := ⟨B - 3, by omega⟩
        have : (k + 3) * (k + 3) = k * k + 6 * k + 9 := by ring
        omega
      omega)
  have hsize : B * B ≤ d.size + 1 := by
    classical
    -- one cell for each place of the block
    choose! cell hcell using fun (ij : Nat × Nat) (hij : ij.1 < B ∧ ij.2 < B) => hq.get hij.1 hij.2
    have := Finset.card_le_card_of_injOn (s := Finset.range B ×ˢ Finset.range B) (t := (s :: d.keys).toFinset) cell (by
      intro ij hij
      simp only [Finset.coe_product, Finset.coe_range, Set.mem_prod, Set.mem_Iio] at hij
      rw [Finset.mem_coe, List.mem_toFinset, List.mem_cons]
      rcases (hcell ij hij).1 with h1 | h1
      · exact Or.inl h1
      · exact Or.inr (NMap.mem_keySet.1 h1)) (by
      intro ij hij kl hkl he
      simp only [Finset.coe_product, Finset.coe_range, Set.mem_prod, Set.mem_Iio] at hij hkl
      have h1 := (hcell ij hij).2
      have h2 := (hcell kl hkl).2
      rw [he] at h1
      have : ij.1 = kl.1 ∧ ij.2 = kl.2 := by omega
      exact Prod.ext this.1 this.2)
    rw [Finset.card_product, Finset.card_range] at this
    refine Nat.le_trans this (Nat.le_trans (List.toFinset_card_le _) ?_)
    rw [List.length_cons, NMap.size_eq_keys]
  obtain ⟨xs, κ, m, ⟨f, hgr⟩, hh, hlen, hn, hκ, hbs, rfl⟩ := hbig (by omega)
  have hB1 : 1 ≤ B * B := by have := Nat.mul_le_mul hB hB; omega
  obtain ⟨f', hgr'⟩ := hgr.take (B * B) hB1 (by omega)
  have hh' : (xs.take (B * B)).head? = some s := by
    cases xs with
    | nil => cases hh
    | cons a l =>
      obtain ⟨k, hk⟩ : ∃ k, B * B = k + 1 := ⟨B * B - 1, by omega⟩
      rw [hk]
      simpa using hh
  have hlt : ∀ x ∈ xs, x < n := by
    intro x hx
    rcases hgr.adj x hx with h1 | ⟨y, h1⟩
    · rw [hh] at h1
      cases h1
      exact lt_of_agg hs hl
    · exact (G.grid.adj_iff.1 h1).2.1
  have hnt := hn.sublist (List.take_sublist (B * B) xs)
  have hlt' : (xs.take (B * B)).length = B * B := by rw [List.length_take]; omega
  have hfull := hq.full (by omega) hext hfc hgr' hh' hnt hlt'
  have hbl : ∀ x, x ∈ xs.take (B * B) ↔ x < n ∧ SameTile B 2 (pos x) (pos s) := fun x => by
    rw [hfull x]; exact hmem x
  have hc2 := block_compact hq (by omega) hnt hlt' hfull (hκ (B * B) (by omega) (by omega))
  have hhi : xs.length ≤ B * B + 1 ∨ (xs.length ≤ B * B + 2 ∧ E.goalCard = B * B) := by
    have hle : xs.length ≤ E.maxCard := by rw [hlen]; exact Nat.min_le_left _ _
    rcases hlarge with h1 | ⟨h1, h2⟩
    · exact Or.inl (Nat.le_trans hle h1)
    · exact Or.inr ⟨Nat.le_trans hle h1, h2⟩
  have := tile_size hv hu G hbnd hB hn hlt hbl (Nat.le_trans hmin hgoal) (by rw [hlen]; exact Nat.le_min.2 ⟨hmax, hsize⟩) hhi hκ hc2 hbs
  subst this
  intro x
  rw [NSet.mem_ofList]
  exact hbl x

end CoMMA.Tile
