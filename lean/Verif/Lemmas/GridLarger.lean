import Verif.Lemmas.GridSides
/-! # Blocks when coarse cells may be larger -/

set_option linter.unusedSectionVars false

namespace CoMMA

variable {W F : Type} [Num W]
variable {D : Nat} {ext : Nat → Nat} {n : Nat} {pos : Nat → Nat → Nat}

open Classical in
/-- external faces by directions -/
theorem externalFaces_eq {g : Graph W} (hv : ValidCRS n g.rowPtr g.colInd) (hu : UniqueRows g.rowPtr g.colInd)
    (G : IsGrid D ext n pos (Adj g.rowPtr g.colInd)) (hb : ∀ c < n, g.nBnd[c]? = some (sidesOut D ext (pos c))) {s : NSet}
    (hs : ∀ x ∈ s, x < n) :
    externalFaces g s = ∑ x ∈ s.elems.toFinset, ((dirs D).filter (Lonely D pos s.elems.toFinset x)).card := by
  unfold externalFaces
  rw [List.sum_toFinset _ s.nodup]
  congr 1
  apply List.map_congr_left
  intro x hx
  have hxn := hs x hx
  rw [hb x hxn, Option.getD_some]
  have hnd : (rowOf g.rowPtr g.colInd x).Nodup := by rw [rowOf_eq hv hxn]; exact UniqueRows.nodup hv hu hxn
  rw [← G.lonely_card hxn (T := s.elems.toFinset) (N := ((rowOf g.rowPtr g.colInd x).filter (fun y => !s.has y)).toFinset)]
  · rw [List.toFinset_card_of_nodup (hnd.filter _), List.countP_eq_length_filter]
  · intro y hy
    exact hs y (List.mem_toFinset.1 hy)
  · intro y
    rw [List.mem_toFinset, List.mem_filter, List.mem_toFinset, adj_iff_rowOf, Bool.not_eq_true', NSet.has_false_iff]
    rfl

open Classical in
/-- the cell that is furthest has no neighbour upwards -/
theorem exists_lonely {T : Finset Nat} (hT : T.Nonempty) : ∃ x ∈ T, D ≤ ((dirs D).filter (Lonely D pos T x)).card := by
  obtain ⟨x, hx, hmax⟩ := Finset.exists_max_image T (fun y => ∑ a ∈ Finset.range D, pos y a) hT
  refine ⟨x, hx, ?_⟩
  have hsub : (Finset.range D).image (fun a => (a, true)) ⊆ (dirs D).filter (Lonely D pos T x) := by
    intro d hd
    obtain ⟨a, ha, rfl⟩ := Finset.mem_image.1 hd
    have ha' := Finset.mem_range.1 ha
    refine Finset.mem_filter.2 ⟨mem_dirs.2 ha', fun y hy hb => ?_⟩
    have h1 := hmax y hy
    have h2 : ∑ b ∈ Finset.range D, pos x b < ∑ b ∈ Finset.range D, pos y b := by
      refine Finset.sum_lt_sum (fun b hb' => ?_) ⟨a, ha, ?_⟩
      · by_cases hba : b = a
        · subst hba
          have := hb.1
          simp at this
          omega
        · rw [hb.2 b (Finset.mem_range.1 hb') hba]
      · have := hb.1
        simp at this
        omega
    omega
  have := Finset.card_le_card hsub
  rw [Finset.card_image_of_injective _ (fun a b h => by simpa using h), Finset.card_range] at this
  exact this

/-- compactness is at most the dimension -/
theorem compactness_le_dim {g : Graph W} (G : IsGrid D ext n pos (Adj g.rowPtr g.colInd)) {xs : List Nat} (hn : xs.Nodup)
    {k : Nat} (h : IsCompactness g.rowPtr g.colInd (NSet.ofList xs) k) : k ≤ D := by
  classical
  rcases xs.eq_nil_or_concat with rfl | ⟨ys, y, hy⟩
  · rw [h.1 (by simp [NSet.card_ofList])]
    exact Nat.zero_le _
  have hne : xs.toFinset.Nonempty := ⟨y, by rw [hy]; simp⟩
  obtain ⟨x, hx, hl⟩ := exists_lonely (D := D) (pos := pos) hne
  rw [List.mem_toFinset] at hx
  refine Nat.le_trans (compactness_le hn hx h) ?_
  have := G.inside_card (x := x) (T := xs.toFinset)
    (N := (xs.filter (fun y => decide (y ∈ rowOf g.rowPtr g.colInd x))).toFinset) (by
      intro y hy
      rw [List.mem_toFinset, List.mem_filter] at hy
      exact ⟨adj_iff_rowOf.2 (by simpa using hy.2), List.mem_toFinset.2 hy.1⟩)
  rw [List.toFinset_card_of_nodup (hn.filter _), ← List.countP_eq_length_filter] at this
  unfold cnt
  omega

open Classical in
/-- a cell of a block has a neighbour of the block along each axis -/
theorem block_lonely {R : Nat → Nat → Prop} (G : EvenGrid D ext n pos R) {T : Finset Nat} {s : Nat}
    (hT : ∀ x, x ∈ T ↔ x < n ∧ SameBlock D (pos x) (pos s)) {x : Nat} (hx : x ∈ T) :
    ((dirs D).filter (Lonely D pos T x)).card ≤ D := by
  obtain ⟨hxn, hxs⟩ := (hT x).1 hx
  have hflip : ∀ a < D, ∃ up, ¬ Lonely D pos T x (a, up) := by
    intro a ha
    obtain ⟨y, hy⟩ := G.exists_bit hxn (fun b => decide (b = a))
    have hyT : y ∈ T := (hT y).2 ⟨hy.1, hy.block.trans hxs⟩
    have hya := hy.2 a ha
    simp only [decide_true, if_true] at hya
    have hyb : ∀ b < D, b ≠ a → pos y b = pos x b := fun b hb hne => by simpa [hne] using hy.2 b hb
    rcases (flip2_spec (pos x a)).1 with h | h
    · refine ⟨true, fun hl => hl y hyT ⟨?_, hyb⟩⟩
      simp only [if_true]
      omega
    · refine ⟨false, fun hl => hl y hyT ⟨?_, hyb⟩⟩
      simp
      omega
  rw [← Finset.card_image_of_injOn (f := Prod.fst) (s := (dirs D).filter (Lonely D pos T x))]
  · refine Nat.le_trans (Finset.card_le_card (t := Finset.range D) ?_) (by rw [Finset.card_range])
    intro a ha
    obtain ⟨d, hd, rfl⟩ := Finset.mem_image.1 ha
    exact Finset.mem_range.2 (mem_dirs.1 (Finset.mem_filter.1 hd).1)
  · rintro ⟨a, u⟩ hd ⟨a', u'⟩ hd' he
    have he : a = a' := he
    subst he
    have h1 := Finset.mem_filter.1 hd
    have h2 := Finset.mem_filter.1 hd'
    obtain ⟨up, hup⟩ := hflip a (mem_dirs.1 h1.1)
    cases u <;> cases u' <;> cases up <;> first | rfl | exact absurd h1.2 hup | exact absurd h2.2 hup

/-- in the plane, no set of five to eight cells costs less than a block -/
theorem plane_cost {a b m : Nat} (h : m ≤ a * b) (h5 : 5 ≤ m) (h8 : m ≤ 8) : m + 4 ≤ 2 * (a + b) := by
  have h1 : m = 5 ∨ m = 6 ∨ m = 7 ∨ m = 8 := by omega
  by_contra hlt
  have ha : a ≤ 5 := by omega
  have hb : b ≤ 5 := by omega
  have key : ∀ a ≤ 5, ∀ b ≤ 5, ∀ m ≤ 8, 5 ≤ m → m ≤ a * b → m + 4 ≤ 2 * (a + b) := by decide
  exact hlt (key a ha b hb m h8 h5 h)

theorem amgm3 (a b c : Nat) : 27 * (a * b * c) ≤ (a + b + c) ^ 3 := by
  have : (27 : Int) * (a * b * c) ≤ (a + b + c) ^ 3 := by
    have ha : (0 : Int) ≤ a := Int.natCast_nonneg a
    have hb : (0 : Int) ≤ b := Int.natCast_nonneg b
    have hc : (0 : Int) ≤ c := Int.natCast_nonneg c
    have h1 := mul_nonneg ha (sq_nonneg ((b : Int) - c))
    have h2 := mul_nonneg hb (sq_nonneg ((c : Int) - a))
    have h3 := mul_nonneg hc (sq_nonneg ((a : Int) - b))
    have hs : (0 : Int) ≤ a + b + c := by omega
    have h4 := mul_nonneg hs (sq_nonneg ((a : Int) - b))
    have h5 := mul_nonneg hs (sq_nonneg ((b : Int) - c))
    have h6 := mul_nonneg hs (sq_nonneg ((c : Int) - a))
    nlinarith
  exact_mod_cast this

theorem cube_cost : ∀ m ≤ 166, 9 ≤ m → (m + 15) ^ 3 < 216 * m ^ 2 := by decide +kernel

/-- in space, no set of nine to 166 cells costs less than a block -/
theorem space_cost {a b c m : Nat} (h : m ^ 2 ≤ a * b * c) (h9 : 9 ≤ m) (hm : m ≤ 166) : m + 16 ≤ 2 * (a + b + c) := by
  by_contra hlt
  have h1 : 2 * (a + b + c) ≤ m + 15 := by omega
  have h2 := Nat.pow_le_pow_left h1 3
  have h3 := amgm3 a b c
  have h4 := cube_cost m hm h9
  have h5 : (2 * (a + b + c)) ^ 3 = 8 * (a + b + c) ^ 3 := by ring
  omega

/-- sizes of coarse cells that may be allowed -/
def Allowed (D hi : Nat) : Prop := (D = 2 ∧ hi ≤ 8) ∨ (D = 3 ∧ hi ≤ 166)

open Classical in
/-- lower bound for the faces of a set that is larger than a block -/
theorem faces_ge {R : Nat → Nat → Prop} (G : IsGrid D ext n pos R) {hi : Nat} (hD : Allowed D hi) {T : Finset Nat}
    (hT : ∀ x ∈ T, x < n) (h1 : 2 ^ D < T.card) (h2 : T.card ≤ hi) :
    T.card + (D - 1) * 2 ^ D ≤ ∑ x ∈ T, ((dirs D).filter (Lonely D pos T x)).card := by
  refine Nat.le_trans ?_ (shadows_le (D := D) (pos := pos) (T := T))
  rcases hD with ⟨rfl, hh⟩ | ⟨rfl, hh⟩
  · have := plane_cost (area_le G hT) (by omega) (by omega)
    simp only [Finset.sum_range_succ, Finset.sum_range_zero, Nat.zero_add]
    omega
  · have := space_cost (volume_le G hT) (by omega) (by omega)
    simp only [Finset.sum_range_succ, Finset.sum_range_zero, Nat.zero_add]
    omega

/-- the size of a block is chosen -/
theorem larger_size {g : Graph W} (hv : ValidCRS n g.rowPtr g.colInd) (hu : UniqueRows g.rowPtr g.colInd)
    (G : EvenGrid D ext n pos (Adj g.rowPtr g.colInd)) (hb : ∀ c < n, g.nBnd[c]? = some (sidesOut D ext (pos c)))
    {xs : List Nat} (hD : Allowed D xs.length) (hn : xs.Nodup) (hlt : ∀ x ∈ xs, x < n) {s : Nat}
    (hbl : ∀ x, x ∈ xs.take (2 ^ D) ↔ x < n ∧ SameBlock D (pos x) (pos s)) {lo m : Nat} {κ : Nat → Nat}
    (hlo : lo ≤ 2 ^ D) (hlen : 2 ^ D ≤ xs.length)
    (hκ : ∀ j, lo ≤ j → j ≤ xs.length → IsCompactness g.rowPtr g.colInd (NSet.ofList (xs.take j)) (κ j))
    (hc : D ≤ κ (2 ^ D)) (hc' : ∀ j, lo ≤ j → j < 2 ^ D → κ j < D)
    (h : BestSize lo xs.length (2 ^ D) κ (fun j => (externalFaces g (NSet.ofList (xs.take j)) : Int) - j) m) : m = 2 ^ D := by
  classical
  obtain ⟨h1, h2, h3⟩ := h
  have h4 := h3 (2 ^ D) hlo hlen
  by_contra hne
  rcases Nat.lt_or_ge m (2 ^ D) with hm | hm
  · have := hc' m h1 hm
    omega
  have hle : κ m ≤ D := compactness_le_dim G.grid (hn.sublist (List.take_sublist m xs)) (hκ m h1 h2)
  have hset : ∀ j, (NSet.ofList (xs.take j)).elems.toFinset.card = min j xs.length := by
    intro j
    rw [List.toFinset_card_of_nodup (NSet.nodup _), ← List.length_take]
    exact (NSet.elems_perm (hn.sublist (List.take_sublist j xs)) (fun a => by simp)).length_eq
  have hin : ∀ j, ∀ x ∈ NSet.ofList (xs.take j), x < n := by
    intro j x hx
    rw [NSet.mem_ofList] at hx
    exact hlt x (List.mem_of_mem_take hx)
  have e1 : externalFaces g (NSet.ofList (xs.take (2 ^ D))) ≤ 2 ^ D * D := by
    rw [externalFaces_eq hv hu G.grid hb (hin _)]
    refine Nat.le_trans (Finset.sum_le_card_nsmul _ _ D (fun x hx => ?_)) ?_
    · refine block_lonely (s := s) G (fun y => ?_) hx
      rw [List.mem_toFinset, ← NSet.mem_def, NSet.mem_ofList]
      exact hbl y
    · rw [hset, Nat.min_eq_left hlen]
      exact Nat.le_refl _
  have e2 : m + (D - 1) * 2 ^ D ≤ externalFaces g (NSet.ofList (xs.take m)) := by
    rw [externalFaces_eq hv hu G.grid hb (hin _)]
    have := faces_ge (pos := pos) G.grid hD (T := (NSet.ofList (xs.take m)).elems.toFinset)
      (fun x hx => hin m x (List.mem_toFinset.1 hx)) (by rw [hset]; omega) (by rw [hset]; omega)
    rw [hset, Nat.min_eq_left h2] at this
    exact this
  have e3 : 2 ^ D * D = (D - 1) * 2 ^ D + 2 ^ D := by
    rcases hD with ⟨rfl, _⟩ | ⟨rfl, _⟩ <;> rfl
  rw [e3] at e1
  generalize (D - 1) * 2 ^ D = q at *
  generalize 2 ^ D = p at *
  simp only at h4
  omega

/-- 2D: the coarse cell grown from a corner is its block, also if eight cells are allowed -/
theorem grown_square_larger {E : IsoEnv W F} (hv : ValidCRS n E.g.rowPtr E.g.colInd) (hu : UniqueRows E.g.rowPtr E.g.colInd)
    (G : EvenGrid 2 ext n pos (Adj E.g.rowPtr E.g.colInd)) (hbnd : ∀ c < n, E.g.nBnd[c]? = some (sidesOut 2 ext (pos c)))
    (hdim : 2 ≤ E.g.dim) (hfc : E.fcIter ≤ 1) (hgoal : E.goalCard = 4) (hmax4 : 4 ≤ E.maxCard) (hmax : E.maxCard ≤ 8)
    (hmin : E.minCard ≤ 4) {agg : List Bool} {s order : Nat} {S : NSet}
    (hl : agg.length = n) (hb : BlockSet 2 n pos (fun x => agg[x]? = some true)) (hs : agg[s]? = some false)
    (hc : Corner 2 pos (Adj E.g.rowPtr E.g.colInd) (fun x => agg[x]? = some true) s)
    (h : GrownCell E (GrownGreedily E) agg s order S) :
    ∀ x, x ∈ S ↔ x < n ∧ SameBlock 2 (pos x) (pos s) := by
  obtain ⟨d, hd, ho, -, -, hbig⟩ := h
  obtain ⟨u, v, t, hsq, hmem⟩ := square_of_corner G hl hb hs hc hd (by
    rcases ho with ho | ⟨ho, _⟩
    · exact Or.inl ho
    · right
      split at ho <;> omega)
  have hnd := hsq.nodup
  have hsize : 3 ≤ d.size := by
    have h1 := (List.nodup_cons.1 hnd).2
    have := List.Subperm.length_le (List.subperm_of_subset h1 (l₂ := d.keys) (by
      intro x hx
      simp only [List.mem_cons, List.not_mem_nil, or_false] at hx
      rcases hx with rfl | rfl | rfl
      · exact mem_keySet_of hsq.du
      · exact mem_keySet_of hsq.dv
      · exact mem_keySet_of hsq.dt))
    rw [NMap.size_eq_keys]
    exact this
  obtain ⟨xs, κ, m, ⟨f, hgr⟩, hh, hlen, hn, hκ, hbs, rfl⟩ := hbig (by omega)
  rw [hgoal] at hbs
  obtain ⟨f', hgr'⟩ := hgr.take 4 (by omega) (by omega)
  have hh' : (xs.take 4).head? = some s := by
    cases xs with
    | nil => cases hh
    | cons a l => simpa using hh
  have hlt : ∀ x ∈ xs, x < n := by
    intro x hx
    rcases hgr.adj x hx with h1 | ⟨y, h1⟩
    · rw [hh] at h1
      cases h1
      exact lt_of_agg hs hl
    · exact (G.grid.adj_iff.1 h1).2.1
  have htk : ∀ j ≤ 4, xs.take j = (xs.take 4).take j := by
    intro j hj
    rw [List.take_take, Nat.min_eq_left hj]
  have hκ4 : ∀ j, E.minCard ≤ j → j ≤ 4 → IsCompactness E.g.rowPtr E.g.colInd (NSet.ofList ((xs.take 4).take j)) (κ j) := by
    intro j h1 h2
    rw [← htk j h2]
    exact hκ j h1 (by omega)
  have key : (∀ x, x ∈ xs.take (2 ^ 2) ↔ x < n ∧ SameBlock 2 (pos x) (pos s)) ∧ 2 ≤ κ (2 ^ 2) ∧
      ∀ j, E.minCard ≤ j → j < 2 ^ 2 → κ j < 2 := by
    have h22 : 2 ^ 2 = 4 := rfl
    rw [h22]
    rcases hsq.grown hdim (Or.inr hfc) hgr' hh' (by rw [List.length_take]; omega) with he | he
    · rw [he] at hκ4 ⊢
      obtain ⟨h1, h2⟩ := hsq.compact hκ4 hmin
      refine ⟨fun x => ?_, h1, fun j h3 h4 => Nat.lt_succ_of_le (h2 j h3 h4)⟩
      rw [hmem x]
      simp
    · rw [he] at hκ4 ⊢
      obtain ⟨h1, h2⟩ := hsq.swap.compact hκ4 hmin
      refine ⟨fun x => ?_, h1, fun j h3 h4 => Nat.lt_succ_of_le (h2 j h3 h4)⟩
      rw [hmem x]
      simp
      tauto
  obtain ⟨k1, k2, k3⟩ := key
  have := larger_size hv hu G hbnd (Or.inl ⟨rfl, by omega⟩) hn hlt k1 (by omega) (by omega) hκ k2 k3 hbs
  subst this
  intro x
  rw [NSet.mem_ofList]
  exact k1 x

/-- 3D: the coarse cell grown from a corner is its block, also if more cells are allowed -/
theorem grown_cube_larger {E : IsoEnv W F} (hv : ValidCRS n E.g.rowPtr E.g.colInd) (hu : UniqueRows E.g.rowPtr E.g.colInd)
    (G : EvenGrid 3 ext n pos (Adj E.g.rowPtr E.g.colInd)) (hbnd : ∀ c < n, E.g.nBnd[c]? = some (sidesOut 3 ext (pos c)))
    (hdim : E.g.dim = 3) (hext : E.nbh = .extended) (hfc : E.fcIter ≤ 1) (hgoal : E.goalCard = 8) (hmax8 : 8 ≤ E.maxCard)
    (hmax : E.maxCard ≤ 166) (hmin : E.minCard ≤ 8) {agg : List Bool} {s order : Nat} {S : NSet}
    (hl : agg.length = n) (hb : BlockSet 3 n pos (fun x => agg[x]? = some true)) (hs : agg[s]? = some false)
    (hc : Corner 3 pos (Adj E.g.rowPtr E.g.colInd) (fun x => agg[x]? = some true) s)
    (h : GrownCell E (GrownGreedily E) agg s order S) :
    ∀ x, x ∈ S ↔ x < n ∧ SameBlock 3 (pos x) (pos s) := by
  obtain ⟨d, hd, ho, -, -, hbig⟩ := h
  obtain ⟨cell, hcu, hc0, hmem⟩ := cube_of_corner G hl hb hs hc hd (by
    rcases ho with ho | ⟨ho, _⟩
    · exact Or.inl ho
    · right
      rw [hdim, if_neg (by omega)] at ho
      omega)
  have hsize : 7 ≤ d.size := by
    have h1 : ((List.range' 1 7).map cell).Nodup :=
      hcu.nodup (by decide) (fun i hi => by rw [List.mem_range'_1] at hi; omega)
    have := List.Subperm.length_le (List.subperm_of_subset h1 (l₂ := d.keys) (by
      intro x hx
      obtain ⟨i, hi, rfl⟩ := List.mem_map.1 hx
      rw [List.mem_range'_1] at hi
      exact mem_keySet_of (hcu.dist i (by omega) (by omega))))
    rw [NMap.size_eq_keys]
    simpa using this
  obtain ⟨xs, κ, m, ⟨f, hgr⟩, hh, hlen, hn, hκ, hbs, rfl⟩ := hbig (by omega)
  rw [hgoal] at hbs
  obtain ⟨f', hgr'⟩ := hgr.take 8 (by omega) (by omega)
  have hh' : (xs.take 8).head? = some (cell 0) := by
    rw [hc0]
    cases xs with
    | nil => cases hh
    | cons a l => simpa using hh
  have hlt : ∀ x ∈ xs, x < n := by
    intro x hx
    rcases hgr.adj x hx with h1 | ⟨y, h1⟩
    · rw [hh] at h1
      cases h1
      exact lt_of_agg hs hl
    · exact (G.grid.adj_iff.1 h1).2.1
  have hl8 : (xs.take 8).length = 8 := by rw [List.length_take]; omega
  have hκ8 : ∀ j, E.minCard ≤ j → j ≤ 8 → IsCompactness E.g.rowPtr E.g.colInd (NSet.ofList ((xs.take 8).take j)) (κ j) := by
    intro j h1 h2
    rw [List.take_take, Nat.min_eq_left h2]
    exact hκ j h1 (by omega)
  obtain ⟨is, his, he⟩ := hcu.grown hext hfc 7 (Nat.le_refl _) hgr' hh' hl8
  have his := runs3_last is his
  rw [he] at hκ8 hl8
  obtain ⟨h1, h2⟩ := hcu.compact his hκ8 hmin (by simpa using hl8)
  obtain ⟨_, i2, i3, _⟩ := his
  have k1 : ∀ x, x ∈ xs.take (2 ^ 3) ↔ x < n ∧ SameBlock 3 (pos x) (pos s) := by
    intro x
    have h23 : 2 ^ 3 = 8 := rfl
    rw [h23, he, hmem x, List.mem_map]
    constructor
    · rintro ⟨i, hi, rfl⟩
      exact ⟨i, i2 i hi, rfl⟩
    · rintro ⟨i, hi, rfl⟩
      exact ⟨i, i3 i hi, rfl⟩
  have := larger_size hv hu G hbnd (Or.inr ⟨rfl, by omega⟩) hn hlt k1 (by omega) (by omega) hκ h1
    (fun j h3 h4 => Nat.lt_succ_of_le (h2 j h3 h4)) hbs
  subst this
  intro x
  rw [NSet.mem_ofList]
  exact k1 x

end CoMMA
