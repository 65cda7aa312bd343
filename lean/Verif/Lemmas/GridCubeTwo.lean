import Verif.Lemmas.GridCube
import Verif.Lemmas.Shape
/-! # Growth of a coarse cell from the corner of a block, in 3D, when one cell is looked ahead -/

set_option linter.unusedSectionVars false

namespace CoMMA

variable {W F : Type} [Num W]
variable {ext : Nat → Nat} {n : Nat} {pos : Nat → Nat → Nat}

/-- largest number of neighbours in `is` of a cell of the block next to `is` -/
def most3 (is : List Nat) : Nat := ((front3 is).map (fun i => cnt3 i is)).foldr max 0

/-- faces of cell `i` when one cell is looked ahead -/
def face2 (is : List Nat) (i : Nat) : Nat := max (cnt3 i is) (most3 (is ++ [i]))

/-- the aspect ratio of cell `i` is replaced by the best possible one -/
def zero2 (is : List Nat) (i : Nat) : Bool := decide (most3 (is ++ [i]) = cnt3 i is)

/-- the best cells of the block when one cell is looked ahead -/
def best2 (is : List Nat) : List Nat :=
  (front3 is).filter (fun i => (front3 is).all (fun j => decide (face2 is j < face2 is i) ||
    (decide (face2 is j = face2 is i) && decide (axes3 i ≤ axes3 j))))

/-- ways to grow inside of the block -/
def runs2 : Nat → List (List Nat)
  | 0 => [[0]]
  | m + 1 => (runs2 m).flatMap (fun is => (if m < 6 then best2 is else best3 is).map (fun i => is ++ [i]))

/-- one of the cells of the block next to `is` is better than all the cells out of the block -/
def inside2 (is : List Nat) : Bool := decide (is = [0]) ||
  (front3 is).any (fun i => decide (max 2 (most3 is) < face2 is i) ||
    (decide (max 2 (most3 is) = face2 is i) && (decide (axes3 i = 1) || (decide (axes3 i ≤ 2) && zero2 is i))))

theorem runs2_ok : ∀ m < 6, ∀ is ∈ runs2 m, inside2 is = true ∧ is.Nodup ∧ (∀ i ∈ is, i < 8) ∧ 0 ∈ is ∧
    ∀ i ∈ front3 is, 1 ≤ most3 (is ++ [i]) := by decide +kernel

theorem runs2_seven : ∀ is ∈ runs2 6, inside3 is = true ∧ is.Nodup ∧ (∀ i ∈ is, i < 8) ∧ 0 ∈ is := by decide +kernel

theorem runs2_last : ∀ is ∈ runs2 7, Full3 is := by decide +kernel

theorem le_foldr_max {l : List Nat} {x : Nat} (h : x ∈ l) : x ≤ l.foldr max 0 := by
  induction l with
  | nil => cases h
  | cons a l ih =>
    rw [List.foldr_cons]
    rcases List.mem_cons.1 h with rfl | h
    · omega
    · have := ih h; omega

theorem foldr_max_mem {l : List Nat} (h : 1 ≤ l.foldr max 0) : l.foldr max 0 ∈ l := by
  induction l with
  | nil => simp at h
  | cons a l ih =>
    rw [List.foldr_cons] at h ⊢
    by_cases h1 : l.foldr max 0 ≤ a
    · rw [Nat.max_eq_left h1]; simp
    · rw [Nat.max_eq_right (by omega)]
      exact List.mem_cons_of_mem _ (ih (by omega))

theorem mem_front3 {is : List Nat} {i : Nat} : i ∈ front3 is ↔ i < 8 ∧ i ∉ is ∧ 1 ≤ cnt3 i is := by
  unfold front3
  rw [List.mem_filter, List.mem_range, Bool.and_eq_true, decide_eq_true_eq, decide_eq_true_eq]

theorem cnt_snoc {g : Graph W} {x y : Nat} {xs : List Nat} :
    cnt g x (xs ++ [y]) = cnt g x xs + if y ∈ rowOf g.rowPtr g.colInd x then 1 else 0 := by
  unfold cnt
  rw [List.countP_append]
  simp [List.countP_cons]

/-- a cell out of the block has at most one neighbour in it -/
theorem Cube.out_le {g : Graph W} {d : NMap Nat} {cell : Nat → Nat} (h : Cube g d cell) {is : List Nat} (hn : is.Nodup)
    (hi : ∀ i ∈ is, i < 8) {x : Nat} (hx : ¬ ∃ i < 8, x = cell i) : CoMMA.cnt g x (is.map cell) ≤ 1 := by
  by_contra h2
  obtain ⟨y, z, hy, hz, hne, hyr, hzr⟩ := two_of_cnt (g := g) (x := x) (h.nodup hn hi) (by omega)
  obtain ⟨i, hi1, rfl⟩ := List.mem_map.1 hy
  obtain ⟨j, hj1, rfl⟩ := List.mem_map.1 hz
  exact hx (h.closed x i (hi i hi1) j (hi j hj1) (fun e => hne (by rw [e])) hyr hzr)

/-- cells of the block next to `is` may be added -/
theorem Cube.inFront {g : Graph W} {d : NMap Nat} {cell : Nat → Nat} (h : Cube g d cell) {is : List Nat}
    (hi : ∀ i ∈ is, i < 8) (h0 : 0 ∈ is) {j : Nat} (hj : j ∈ front3 is) :
    InFront g.rowPtr g.colInd d.keySet (is.map cell) (cell j) ∧ 0 < j := by
  obtain ⟨hj8, hjn, hj1⟩ := mem_front3.1 hj
  have hjpos : 0 < j := by
    rcases Nat.eq_zero_or_pos j with rfl | hp
    · exact absurd h0 hjn
    · exact hp
  refine ⟨⟨mem_keySet_of (h.dist j hj8 hjpos), ?_, ?_⟩, hjpos⟩
  · intro hmem
    obtain ⟨i, hi1, hi2⟩ := List.mem_map.1 hmem
    exact hjn (h.inj i (hi i hi1) j hj8 hi2 ▸ hi1)
  · obtain ⟨i, hi1, hi2⟩ := List.countP_pos_iff.1 hj1
    exact ⟨cell i, List.mem_map_of_mem hi1, adj_iff_rowOf.2 (h.symm _ _ ((h.adj j hj8 i (hi i hi1)).2 hi2))⟩

/-- and conversely -/
theorem Cube.front {g : Graph W} {d : NMap Nat} {cell : Nat → Nat} (h : Cube g d cell) {is : List Nat}
    (hi : ∀ i ∈ is, i < 8) {k : Nat} (hk : k < 8)
    (hf : InFront g.rowPtr g.colInd d.keySet (is.map cell) (cell k)) : k ∈ front3 is := by
  obtain ⟨_, hcn, y, hy, hyc⟩ := hf
  refine mem_front3.2 ⟨hk, fun hmem => hcn (List.mem_map_of_mem hmem), ?_⟩
  obtain ⟨i, hi1, rfl⟩ := List.mem_map.1 hy
  unfold cnt3
  exact List.countP_pos_iff.2 ⟨i, hi1, (h.adj k hk i (hi i hi1)).1 (h.symm _ _ (adj_iff_rowOf.1 hyc))⟩

/-- merit of a cell of the block -/
theorem Cube.look_in {E : IsoEnv W F} {kind : ARKind} {d : NMap Nat} {cell : Nat → Nat} (h : Cube E.g d cell)
    (hext : E.nbh = .extended) {is : List Nat} (hn : is.Nodup) (hi : ∀ i ∈ is, i < 8) (h0 : 0 ∈ is) {j : Nat}
    (hj : j ∈ front3 is) (hmost : 1 ≤ most3 (is ++ [j])) {m : Merit W}
    (hpos : ∀ r, RatioOf E.g kind ((NSet.ofList (is.map cell)).insert (cell j)) r → Num.lt (Num.ofNat 0) r = true)
    (hm : TrueLook E kind d 1 (is.map cell) (cell j) m ()) :
    m.faces = face2 is j ∧ m.order = axes3 j ∧ (zero2 is j = true → m.ar = Num.ofNat 0) := by
  obtain ⟨hj8, hjn, hj1⟩ := mem_front3.1 hj
  obtain ⟨hjf, hjpos⟩ := h.inFront hi h0 hj
  obtain ⟨m0, l', hm0, hl', hcase⟩ := hm
  have hn' : (is ++ [j]).Nodup := by
    rw [List.nodup_append]
    refine ⟨hn, by simp, ?_⟩
    rintro a ha b hb rfl
    rw [List.mem_singleton] at hb
    exact hjn (hb ▸ ha)
  have hi' : ∀ i ∈ is ++ [j], i < 8 := by
    intro i hii
    rcases List.mem_append.1 hii with hii | hii
    · exact hi i hii
    · rw [List.mem_singleton.1 hii]; exact hj8
  have hcat : is.map cell ++ [cell j] = (is ++ [j]).map cell := by simp
  rw [hcat] at hl' hcase
  have e1 := hm0.faces
  rw [nbShared_ofList (h.nodup hn hi), h.cnt hi hj8] at e1
  have e2 := hm0.order
  rw [h.dist j hj8 hjpos] at e2
  have e2 := (Option.some.inj e2).symm
  obtain ⟨i0, hi0, hi0e⟩ := List.mem_map.1 (foldr_max_mem hmost)
  have hi0l := cands_all hl' (Or.inr hext) (h.inFront hi' (by simp [h0]) hi0).1
  rcases hcase with ⟨hnil, _⟩ | ⟨c2, m2, hb2, rfl⟩
  · rw [hnil] at hi0l; cases hi0l
  · obtain ⟨hc2l, hc2m, hbest⟩ := hb2.spec
    have hq : nbShared (rowOf E.g.rowPtr E.g.colInd c2) (NSet.ofList ((is ++ [j]).map cell)) = most3 (is ++ [j]) := by
      rw [nbShared_ofList (h.nodup hn' hi')]
      have hge : most3 (is ++ [j]) ≤ CoMMA.cnt E.g c2 ((is ++ [j]).map cell) := by
        obtain ⟨m', _, hm', hgood⟩ := hbest _ hi0l
        have e3 := hm'.faces
        have e4 := hc2m.faces
        rw [nbShared_ofList (h.nodup hn' hi')] at e3 e4
        rw [h.cnt hi' (mem_front3.1 hi0).1] at e3
        have hi0e : cnt3 i0 (is ++ [j]) = most3 (is ++ [j]) := hi0e
        unfold Merit.AsGood at hgood
        omega
      have hle : CoMMA.cnt E.g c2 ((is ++ [j]).map cell) ≤ most3 (is ++ [j]) := by
        by_cases hin : ∃ k < 8, c2 = cell k
        · obtain ⟨k, hk, rfl⟩ := hin
          rw [h.cnt hi' hk]
          exact le_foldr_max (List.mem_map.2 ⟨k, h.front hi' hk (cands_inFront hl' hc2l), rfl⟩)
        · exact Nat.le_trans (h.out_le hn' hi' hin) hmost
      omega
    rw [hq]
    refine ⟨by rw [Merit.ahead_faces, e1]; rfl, by rw [Merit.ahead_order, e2], fun hz => ?_⟩
    have hz : most3 (is ++ [j]) = cnt3 j is := by simpa [zero2] using hz
    unfold Merit.ahead
    rw [if_neg (by omega), if_pos (by simp [hz, e1, hpos _ hm0.ratio])]

/-- merit of a cell out of the block -/
theorem Cube.look_out {E : IsoEnv W F} {kind : ARKind} {d : NMap Nat} {cell : Nat → Nat} (h : Cube E.g d cell)
    {is : List Nat} (hn : is.Nodup) (hi : ∀ i ∈ is, i < 8) {x : Nat} (hx : ¬ ∃ i < 8, x = cell i)
    (hxf : InFront E.g.rowPtr E.g.colInd d.keySet (is.map cell) x) {m : Merit W}
    (hpos : ∀ r, RatioOf E.g kind ((NSet.ofList (is.map cell)).insert x) r → Num.lt (Num.ofNat 0) r = true)
    (hm : TrueLook E kind d 1 (is.map cell) x m ()) :
    m.faces ≤ max 2 (most3 is) ∧ 2 ≤ m.order ∧ (2 ≤ m.faces → Num.lt (Num.ofNat 0) m.ar = true) := by
  obtain ⟨m0, l', hm0, hl', hcase⟩ := hm
  have hnd := h.nodup hn hi
  have hnd' : (is.map cell ++ [x]).Nodup := by
    rw [List.nodup_append]
    refine ⟨hnd, by simp, ?_⟩
    rintro a ha b hb rfl
    rw [List.mem_singleton] at hb
    exact hxf.2.1 (hb ▸ ha)
  have e1 := hm0.faces
  rw [nbShared_ofList hnd] at e1
  have e1' := h.out_le hn hi hx
  have e2 := hm0.order
  have e3 : 2 ≤ m0.order := by
    have h1 := h.pos x _ e2
    have h2 : m0.order ≠ 1 := by
      intro e
      rw [e] at e2
      exact hx (h.one x e2)
    omega
  have e4 := hpos _ hm0.ratio
  rcases hcase with ⟨_, rfl⟩ | ⟨c2, m2, hb2, rfl⟩
  · exact ⟨by omega, e3, fun _ => e4⟩
  · obtain ⟨hc2l, _, _⟩ := hb2.spec
    have hc2f := cands_inFront hl' hc2l
    have hq : nbShared (rowOf E.g.rowPtr E.g.colInd c2) (NSet.ofList (is.map cell ++ [x])) ≤ max 2 (most3 is) := by
      rw [nbShared_ofList hnd', cnt_snoc]
      by_cases hin : ∃ k < 8, c2 = cell k
      · obtain ⟨k, hk, rfl⟩ := hin
        by_cases hxk : x ∈ rowOf E.g.rowPtr E.g.colInd (cell k)
        · exfalso
          obtain ⟨_, _, y, hy, hyx⟩ := hxf
          obtain ⟨i, hi1, rfl⟩ := List.mem_map.1 hy
          have hki : k ≠ i := by
            rintro rfl
            exact hc2f.2.1 (by simp [List.mem_map_of_mem hi1])
          exact hx (h.closed x k hk i (hi i hi1) hki (h.symm _ _ hxk) (h.symm _ _ (adj_iff_rowOf.1 hyx)))
        · rw [if_neg hxk, h.cnt hi hk]
          rcases Nat.eq_zero_or_pos (cnt3 k is) with h1 | h1
          · omega
          · have : cnt3 k is ≤ most3 is := le_foldr_max (List.mem_map.2 ⟨k, mem_front3.2 ⟨hk, fun hki =>
              hc2f.2.1 (by simp [List.mem_map_of_mem hki]), h1⟩, rfl⟩)
            omega
      · have := h.out_le hn hi hin
        split_ifs <;> omega
    refine ⟨by rw [Merit.ahead_faces]; omega, by rw [Merit.ahead_order]; exact e3, fun h2 => ?_⟩
    rw [Merit.ahead_faces] at h2
    unfold Merit.ahead
    rw [if_pos (by omega)]
    exact e4

/-- the next cell added is one of the best of the block -/
theorem Cube.step2 {E : IsoEnv W F} {kind : ARKind} {d : NMap Nat} {cell : Nat → Nat} (h : Cube E.g d cell)
    (hext : E.nbh = .extended) {is l : List Nat} {c : Nat} {m : Merit W} (hn : is.Nodup) (hi : ∀ i ∈ is, i < 8) (h0 : 0 ∈ is)
    (hin : inside2 is = true) (hmost : ∀ i ∈ front3 is, 1 ≤ most3 (is ++ [i]))
    (hl : Candidates E.g E.nbh E.pool.prio d.keySet (is.map cell) l)
    (hpos : ∀ x ∈ l, ∀ r, RatioOf E.g kind ((NSet.ofList (is.map cell)).insert x) r → Num.lt (Num.ofNat 0) r = true)
    (hb : FirstBest (TrueLook E kind d 1 (is.map cell)) l c m ()) : ∃ i ∈ best2 is, c = cell i := by
  obtain ⟨hcl, hcm, hbest⟩ := hb.spec
  have hcf := cands_inFront hl hcl
  have hcand : ∀ j ∈ front3 is, (face2 is j < m.faces ∨ (m.faces = face2 is j ∧ (m.order < axes3 j ∨
      (m.order = axes3 j ∧ (zero2 is j = true → Num.lt (Num.ofNat 0) m.ar = false))))) := by
    intro j hj
    have hjl := cands_all hl (Or.inr hext) (h.inFront hi h0 hj).1
    obtain ⟨m', _, hm', hgood⟩ := hbest _ hjl
    obtain ⟨g1, g2, g3⟩ := h.look_in hext hn hi h0 hj (hmost j hj) (hpos _ hjl) hm'
    unfold Merit.AsGood at hgood
    rw [g1, g2] at hgood
    rcases hgood with hg | ⟨hg, hg' | ⟨hg', hg''⟩⟩
    · exact Or.inl hg
    · exact Or.inr ⟨hg, Or.inl hg'⟩
    · exact Or.inr ⟨hg, Or.inr ⟨hg', fun hz => by rw [← g3 hz]; exact hg''⟩⟩
  have hcell : ∃ k < 8, c = cell k := by
    by_contra hno
    obtain ⟨o1, o2, o3⟩ := h.look_out hn hi hno hcf (hpos _ hcl) hcm
    unfold inside2 at hin
    rw [Bool.or_eq_true, decide_eq_true_eq, List.any_eq_true] at hin
    rcases hin with rfl | ⟨i, hif, hi2⟩
    · obtain ⟨h1, _, y, hy, hyc⟩ := hcf
      simp only [List.map_cons, List.map_nil, List.mem_singleton] at hy
      subst hy
      exact hno (h.near c h1 (adj_iff_rowOf.1 hyc))
    · simp only [Bool.or_eq_true, Bool.and_eq_true, decide_eq_true_eq] at hi2
      have hi3 := hcand i hif
      rcases hi3 with hi3 | ⟨hi3, hi4 | ⟨hi4, hi5⟩⟩
      · omega
      · omega
      · rcases hi2 with hi2 | ⟨hi2, hi6 | ⟨hi6, hi7⟩⟩
        · omega
        · omega
        · rw [o3 (by omega)] at hi5
          exact absurd (hi5 hi7) (by simp)
  obtain ⟨k, hk, rfl⟩ := hcell
  have hkf := h.front hi hk hcf
  obtain ⟨g1, g2, _⟩ := h.look_in hext hn hi h0 hkf (hmost k hkf) (hpos _ hcl) hcm
  refine ⟨k, ?_, rfl⟩
  unfold best2
  rw [List.mem_filter]
  refine ⟨hkf, ?_⟩
  rw [List.all_eq_true]
  intro j hj
  have := hcand j hj
  simp only [Bool.or_eq_true, Bool.and_eq_true, decide_eq_true_eq]
  rcases this with h1 | ⟨h1, h2 | ⟨h2, _⟩⟩ <;> omega

theorem ShapedSeq.not_nil {E : IsoEnv W F} {kind : ARKind} {d : NMap Nat} {hi : Nat} {xs : List Nat}
    (h : ShapedSeq E kind d hi xs) : xs ≠ [] := by
  cases h <;> simp

/-- all the cells added -/
theorem Cube.grown2 {E : IsoEnv W F} {kind : ARKind} {d : NMap Nat} {cell : Nat → Nat} (h : Cube E.g d cell)
    (hext : E.nbh = .extended) (hfc : E.fcIter = 2) (hlt : ∀ i < 8, cell i < n)
    (hcrs : ∀ x y, Adj E.g.rowPtr E.g.colInd x y → y < n)
    (hpos : ∀ (s : NSet) r, 2 ≤ s.card → s.card ≤ 8 → (∀ x ∈ s, x < n) → RatioOf E.g kind s r → Num.lt (Num.ofNat 0) r = true) :
    ∀ (m : Nat) {xs : List Nat}, m ≤ 7 → ShapedSeq E kind d 8 xs → xs.head? = some (cell 0) →
    xs.length = m + 1 → ∃ is ∈ runs2 m, xs = is.map cell := by
  intro m
  induction m with
  | zero =>
    intro xs _ _ hh hl
    obtain ⟨a, rfl⟩ := List.length_eq_one_iff.1 hl
    cases hh
    exact ⟨[0], by simp [runs2], rfl⟩
  | succ m ih =>
    intro xs hm hx hh hl
    cases hx with
    | seed => simp at hl
    | @next ys l c mm hy hcl hb =>
      have hyl : ys.length = m + 1 := by simpa using hl
      obtain ⟨is, his, rfl⟩ := ih (by omega) hy (head_of_snoc hh hy.not_nil) hyl
      have hil : is.length = m + 1 := by simpa using hyl
      rcases Nat.lt_or_ge m 6 with h6 | h6
      · obtain ⟨h1, h2, h3, h4, h5⟩ := runs2_ok m h6 is his
        have hk : min (8 - (is.map cell).length) E.fcIter - 1 = 1 := by rw [List.length_map]; omega
        rw [hk] at hb
        obtain ⟨i, hi, rfl⟩ := h.step2 hext h2 h3 h4 h1 h5 hcl (by
          intro x hx r hr
          obtain ⟨_, hxn, y, _, hyx⟩ := cands_inFront hcl hx
          have hcard : ((NSet.ofList (is.map cell)).insert x).card = m + 2 := by
            rw [← ofList_append, NSet.card_ofList]
            · simp [hil]
            · rw [List.nodup_append]
              refine ⟨h.nodup h2 h3, by simp, ?_⟩
              rintro a ha b hb rfl
              rw [List.mem_singleton] at hb
              exact hxn (hb ▸ ha)
          refine hpos _ r (by omega) (by omega) ?_ hr
          intro z hz
          rw [← ofList_append, NSet.mem_ofList, List.mem_append, List.mem_singleton] at hz
          rcases hz with hz | rfl
          · obtain ⟨i, hi, rfl⟩ := List.mem_map.1 hz
            exact hlt i (h3 i hi)
          · exact hcrs _ _ hyx) hb
        refine ⟨is ++ [i], ?_, by simp⟩
        unfold runs2
        rw [List.mem_flatMap]
        exact ⟨is, his, List.mem_map.2 ⟨i, by rw [if_pos h6]; exact hi, rfl⟩⟩
      · have : m = 6 := by omega
        subst this
        obtain ⟨h1, h2, h3, h4⟩ := runs2_seven is his
        have hk : min (8 - (is.map cell).length) E.fcIter - 1 = 0 := by rw [List.length_map]; omega
        rw [hk] at hb
        obtain ⟨i, hi, rfl⟩ := h.step hext h2 h3 h4 h1 hcl
          (Q := TrueLook E kind d 0 (is.map cell)) (fun _ _ _ hm => ⟨hm.faces, hm.order⟩) hb
        refine ⟨is ++ [i], ?_, by simp⟩
        unfold runs2
        rw [List.mem_flatMap]
        exact ⟨is, his, List.mem_map.2 ⟨i, by rw [if_neg (Nat.lt_irrefl 6)]; exact hi, rfl⟩⟩

end CoMMA
