import Verif.Lemmas.GridBlock
/-! # Growth of a coarse cell from the corner of a block, in 3D

Cells of the block are numbered from 0 to 7, by the axes along which they differ from the corner. -/

set_option linter.unusedSectionVars false

namespace CoMMA

variable {W F : Type} [Num W]
variable {ext : Nat → Nat} {n : Nat} {pos : Nat → Nat → Nat}

/-- number of axes along which cell `i` of the block differs from the corner -/
def axes3 (i : Nat) : Nat := i % 2 + i / 2 % 2 + i / 4 % 2

/-- cells `i` and `j` of the block are neighbours -/
def adj3 (i j : Nat) : Bool :=
  decide ((if i % 2 = j % 2 then 0 else 1) + (if i / 2 % 2 = j / 2 % 2 then 0 else 1) +
    (if i / 4 % 2 = j / 4 % 2 then 0 else 1) = 1)

/-- neighbours of cell `i` among `is` -/
def cnt3 (i : Nat) (is : List Nat) : Nat := is.countP (adj3 i)

/-- cells of the block next to `is` -/
def front3 (is : List Nat) : List Nat := (List.range 8).filter (fun i => decide (i ∉ is) && decide (1 ≤ cnt3 i is))

/-- the best of them -/
def best3 (is : List Nat) : List Nat :=
  (front3 is).filter (fun i => (front3 is).all (fun j => decide (cnt3 j is < cnt3 i is) ||
    (decide (cnt3 j is = cnt3 i is) && decide (axes3 i ≤ axes3 j))))

/-- ways to grow inside of the block -/
def runs3 : Nat → List (List Nat)
  | 0 => [[0]]
  | m + 1 => (runs3 m).flatMap (fun is => (best3 is).map (fun i => is ++ [i]))

/-- one of the cells of the block next to `is` is better than all the cells out of the block -/
def inside3 (is : List Nat) : Bool := (front3 is).any (fun i => decide (2 ≤ cnt3 i is) || decide (axes3 i = 1))

theorem runs3_ok : ∀ m < 7, ∀ is ∈ runs3 m, inside3 is = true ∧ is.Nodup ∧ (∀ i ∈ is, i < 8) ∧ 0 ∈ is := by decide +kernel

/-- all the cells of the block, none of the smaller sets is as compact -/
def Full3 (is : List Nat) : Prop :=
  is.Nodup ∧ (∀ i ∈ is, i < 8) ∧ (∀ i < 8, i ∈ is) ∧ (∀ i ∈ is, cnt3 i is = 3) ∧
    ∀ j < 8, 0 < j → ∃ i ∈ is.take j, cnt3 i (is.take j) ≤ 2

instance (is : List Nat) : Decidable (Full3 is) := by unfold Full3; infer_instance

theorem runs3_last : ∀ is ∈ runs3 7, Full3 is := by decide +kernel

/-- the block of a corner -/
structure Cube (g : Graph W) (d : NMap Nat) (cell : Nat → Nat) : Prop where
  adj : ∀ i < 8, ∀ j < 8, (cell j ∈ rowOf g.rowPtr g.colInd (cell i) ↔ adj3 i j = true)
  inj : ∀ i < 8, ∀ j < 8, cell i = cell j → i = j
  dist : ∀ i < 8, 0 < i → d.find? (cell i) = some (axes3 i)
  one : ∀ x, d.find? x = some 1 → ∃ i < 8, x = cell i
  pos : ∀ x k, d.find? x = some k → 0 < k
  root : cell 0 ∉ d.keySet
  near : ∀ x ∈ d.keySet, x ∈ rowOf g.rowPtr g.colInd (cell 0) → ∃ i < 8, x = cell i
  closed : ∀ x, ∀ i < 8, ∀ j < 8, i ≠ j → cell i ∈ rowOf g.rowPtr g.colInd x → cell j ∈ rowOf g.rowPtr g.colInd x →
    ∃ k < 8, x = cell k
  symm : ∀ x y, y ∈ rowOf g.rowPtr g.colInd x → x ∈ rowOf g.rowPtr g.colInd y

theorem Cube.nodup {g : Graph W} {d : NMap Nat} {cell : Nat → Nat} (h : Cube g d cell) {is : List Nat} (hn : is.Nodup)
    (hi : ∀ i ∈ is, i < 8) : (is.map cell).Nodup :=
  List.Nodup.map_on (fun i h1 j h2 => h.inj i (hi i h1) j (hi j h2)) hn

theorem Cube.cnt {g : Graph W} {d : NMap Nat} {cell : Nat → Nat} (h : Cube g d cell) {is : List Nat}
    (hi : ∀ i ∈ is, i < 8) {k : Nat} (hk : k < 8) : CoMMA.cnt g (cell k) (is.map cell) = cnt3 k is := by
  unfold CoMMA.cnt cnt3
  rw [List.countP_map]
  apply List.countP_congr
  intro i hii
  simp only [Function.comp, decide_eq_true_eq]
  exact h.adj k hk i (hi i hii)

/-- a cell with two neighbours in a list -/
theorem two_of_cnt {g : Graph W} {x : Nat} : ∀ {xs : List Nat}, xs.Nodup → 2 ≤ cnt g x xs →
    ∃ y z, y ∈ xs ∧ z ∈ xs ∧ y ≠ z ∧ y ∈ rowOf g.rowPtr g.colInd x ∧ z ∈ rowOf g.rowPtr g.colInd x := by
  intro xs hn h
  unfold cnt at h
  rw [List.countP_eq_length_filter] at h
  have hn' := hn.filter (fun y => decide (y ∈ rowOf g.rowPtr g.colInd x))
  have hm : ∀ y ∈ xs.filter (fun y => decide (y ∈ rowOf g.rowPtr g.colInd x)), y ∈ xs ∧ y ∈ rowOf g.rowPtr g.colInd x := by
    intro y hy
    rw [List.mem_filter, decide_eq_true_eq] at hy
    exact hy
  revert h hn' hm
  generalize xs.filter (fun y => decide (y ∈ rowOf g.rowPtr g.colInd x)) = l
  intro h hn' hm
  match l, h with
  | y :: z :: l, _ =>
    have h1 := hm y (by simp)
    have h2 := hm z (by simp)
    refine ⟨y, z, h1.1, h2.1, ?_, h1.2, h2.2⟩
    rintro rfl
    simp at hn'

/-- the next cell added is one of the best of the block -/
theorem Cube.step {F' : Type} {E : IsoEnv W F} {d : NMap Nat} {cell : Nat → Nat} (h : Cube E.g d cell) (hext : E.nbh = .extended)
    {Q : Nat → Merit W → F' → Prop} {is l : List Nat} {f' : F'} {c : Nat} {m : Merit W} (hn : is.Nodup) (hi : ∀ i ∈ is, i < 8) (h0 : 0 ∈ is)
    (hin : inside3 is = true) (hl : Candidates E.g E.nbh E.pool.prio d.keySet (is.map cell) l)
    (hQ : ∀ x m f, Q x m f → m.faces = nbShared (rowOf E.g.rowPtr E.g.colInd x) (NSet.ofList (is.map cell)) ∧
      d.find? x = some m.order)
    (hb : FirstBest Q l c m f') : ∃ i ∈ best3 is, c = cell i := by
  have hnd := h.nodup hn hi
  obtain ⟨hcl, hcm, hbest⟩ := hb.spec
  obtain ⟨hck, hcn, y, hy, hyc⟩ := cands_inFront hl hcl
  have ef := (hQ _ _ _ hcm).1
  rw [nbShared_ofList hnd] at ef
  have eo := (hQ _ _ _ hcm).2
  -- cells of the block
  have hcand : ∀ j ∈ front3 is, j < 8 ∧ (cnt3 j is < m.faces ∨ (m.faces = cnt3 j is ∧ m.order ≤ axes3 j)) := by
    intro j hj
    unfold front3 at hj
    rw [List.mem_filter, List.mem_range, Bool.and_eq_true, decide_eq_true_eq, decide_eq_true_eq] at hj
    obtain ⟨hj8, hjn, hj1⟩ := hj
    have hjpos : 0 < j := by
      rcases Nat.eq_zero_or_pos j with rfl | hp
      · exact absurd h0 hjn
      · exact hp
    have hjf : InFront E.g.rowPtr E.g.colInd d.keySet (is.map cell) (cell j) := by
      refine ⟨mem_keySet_of (h.dist j hj8 hjpos), ?_, ?_⟩
      · intro hmem
        obtain ⟨i, hi1, hi2⟩ := List.mem_map.1 hmem
        exact hjn (h.inj i (hi i hi1) j hj8 hi2 ▸ hi1)
      · obtain ⟨i, hi1, hi2⟩ := List.countP_pos_iff.1 hj1
        exact ⟨cell i, List.mem_map_of_mem hi1, adj_iff_rowOf.2 (h.symm _ _ ((h.adj j hj8 i (hi i hi1)).2 hi2))⟩
    obtain ⟨m', f'', hm', hgood⟩ := hbest _ (cands_all hl (Or.inr hext) hjf)
    obtain ⟨e1, e2⟩ := hQ _ _ _ hm'
    rw [nbShared_ofList hnd, h.cnt hi hj8] at e1
    rw [h.dist j hj8 hjpos] at e2
    have e2 := Option.some.inj e2
    refine ⟨hj8, ?_⟩
    unfold Merit.AsGood at hgood
    omega
  have hcell : ∃ k < 8, c = cell k := by
    by_contra hno
    have h1 : CoMMA.cnt E.g c (is.map cell) ≤ 1 := by
      by_contra h2
      obtain ⟨y, z, hy, hz, hne, hyr, hzr⟩ := two_of_cnt (g := E.g) (x := c) hnd (by omega)
      obtain ⟨i, hi1, rfl⟩ := List.mem_map.1 hy
      obtain ⟨j, hj1, rfl⟩ := List.mem_map.1 hz
      exact hno (h.closed c i (hi i hi1) j (hi j hj1) (fun e => hne (by rw [e])) hyr hzr)
    have h2 : m.order ≠ 1 := by
      intro e
      rw [e] at eo
      exact hno (h.one c eo)
    have h3 := h.pos c _ eo
    unfold inside3 at hin
    rw [List.any_eq_true] at hin
    obtain ⟨i, hif, hi2⟩ := hin
    have hif' := hif
    unfold front3 at hif'
    rw [List.mem_filter, List.mem_range, Bool.and_eq_true, decide_eq_true_eq, decide_eq_true_eq] at hif'
    simp only [Bool.or_eq_true, decide_eq_true_eq] at hi2
    have := (hcand i hif).2
    omega
  obtain ⟨k, hk, rfl⟩ := hcell
  refine ⟨k, ?_, rfl⟩
  rw [h.cnt hi hk] at ef
  have hkpos : 0 < k := by
    rcases Nat.eq_zero_or_pos k with rfl | hp
    · exact absurd hck h.root
    · exact hp
  rw [h.dist k hk hkpos] at eo
  have eo := Option.some.inj eo
  unfold best3
  rw [List.mem_filter]
  refine ⟨?_, ?_⟩
  · unfold front3
    rw [List.mem_filter, List.mem_range, Bool.and_eq_true, decide_eq_true_eq, decide_eq_true_eq]
    refine ⟨hk, fun hmem => hcn (List.mem_map_of_mem hmem), ?_⟩
    obtain ⟨i, hi1, rfl⟩ := List.mem_map.1 hy
    unfold cnt3
    exact List.countP_pos_iff.2 ⟨i, hi1, (h.adj k hk i (hi i hi1)).1 (h.symm _ _ (adj_iff_rowOf.1 hyc))⟩
  · rw [List.all_eq_true]
    intro j hj
    have := (hcand j hj).2
    simp only [Bool.or_eq_true, Bool.and_eq_true, decide_eq_true_eq]
    omega

/-- all the cells added -/
theorem Cube.grown {E : IsoEnv W F} {d : NMap Nat} {cell : Nat → Nat} (h : Cube E.g d cell) (hext : E.nbh = .extended)
    (hfc : E.fcIter ≤ 1) {hi : Nat} : ∀ (m : Nat) {xs : List Nat} {f : F}, m ≤ 7 → GreedySeq E d hi xs f → xs.head? = some (cell 0) →
    xs.length = m + 1 → ∃ is ∈ runs3 m, xs = is.map cell := by
  intro m
  induction m with
  | zero =>
    intro xs f _ _ hh hl
    obtain ⟨a, rfl⟩ := List.length_eq_one_iff.1 hl
    cases hh
    exact ⟨[0], by simp [runs3], rfl⟩
  | succ m ih =>
    intro xs f hm hx hh hl
    obtain ⟨ys, c, f0, l, mm, rfl, hy, hcl, hb⟩ := hx.last (by omega)
    have hyl : ys.length = m + 1 := by simpa using hl
    obtain ⟨is, his, rfl⟩ := ih (by omega) hy (head_of_snoc hh hy.not_nil) hyl
    obtain ⟨h1, h2, h3, h4⟩ := runs3_ok m (by omega) is his
    have hk : min (hi - (is.map cell).length) E.fcIter - 1 = 0 := by omega
    rw [hk] at hb
    obtain ⟨i, hi, rfl⟩ := h.step hext h2 h3 h4 h1 hcl (fun _ _ _ hm => ⟨hm.zero.faces, hm.zero.order⟩) hb
    refine ⟨is ++ [i], ?_, by simp⟩
    unfold runs3
    rw [List.mem_flatMap]
    exact ⟨is, his, List.mem_map.2 ⟨i, hi, rfl⟩⟩

/-- compactness of the block and of its parts -/
theorem Cube.compact {g : Graph W} {d : NMap Nat} {cell : Nat → Nat} (h : Cube g d cell) {is : List Nat} (his : Full3 is)
    {lo : Nat} {κ : Nat → Nat}
    (hκ : ∀ j, lo ≤ j → j ≤ 8 → IsCompactness g.rowPtr g.colInd (NSet.ofList ((is.map cell).take j)) (κ j))
    (hlo : lo ≤ 8) (hlen : is.length = 8) : 3 ≤ κ 8 ∧ ∀ m, lo ≤ m → m < 8 → κ m ≤ 2 := by
  obtain ⟨h1, h2, h3, h4, h5⟩ := his
  have hnd := h.nodup h1 h2
  have h8 : 3 ≤ κ 8 := by
    have hc := hκ 8 hlo (Nat.le_refl _)
    rw [List.take_of_length_le (by simp [hlen])] at hc
    have hcard : 1 < (NSet.ofList (is.map cell)).card := by rw [NSet.card_ofList hnd]; simp [hlen]
    obtain ⟨⟨x, hx, hxk⟩, _⟩ := hc.2 hcard
    rw [nbShared_ofList hnd] at hxk
    rw [NSet.mem_ofList] at hx
    obtain ⟨i, hi, rfl⟩ := List.mem_map.1 hx
    rw [h.cnt h2 (h2 i hi), h4 i hi] at hxk
    omega
  refine ⟨h8, fun m b1 b2 => ?_⟩
  have hc := hκ m b1 (by omega)
  have hle : κ m ≤ 2 := by
    rcases Nat.eq_zero_or_pos m with rfl | hp
    · rw [hc.1 (by simp [NSet.card_ofList])]
      omega
    · obtain ⟨i, hi, hi2⟩ := h5 m (by omega) hp
      rw [← List.map_take] at hc
      have hlt : ∀ i ∈ is.take m, i < 8 := fun i hi => h2 i (List.mem_of_mem_take hi)
      refine Nat.le_trans (compactness_le (h.nodup (h1.sublist (List.take_sublist m _)) hlt) (List.mem_map_of_mem hi) hc) ?_
      rw [h.cnt hlt (hlt i hi)]
      exact hi2
  exact hle

/-- the whole block is kept -/
theorem Cube.size {g : Graph W} {d : NMap Nat} {cell : Nat → Nat} (h : Cube g d cell) {is : List Nat} (his : Full3 is)
    {lo m : Nat} {κ : Nat → Nat} {e : Nat → Int}
    (hκ : ∀ j, lo ≤ j → j ≤ 8 → IsCompactness g.rowPtr g.colInd (NSet.ofList ((is.map cell).take j)) (κ j))
    (hlo : lo ≤ 8) (hlen : is.length = 8) (hb : BestSize lo 8 8 κ e m) : m = 8 := by
  obtain ⟨h8, hle⟩ := h.compact his hκ hlo hlen
  obtain ⟨b1, b2, b3⟩ := hb
  by_contra hne
  have hk := b3 8 hlo (Nat.le_refl _)
  have := hle m b1 (by omega)
  omega

/-- bits of the cell numbered `i` -/
def bits3 (i : Nat) : Nat → Bool := bits (decide (i % 2 = 1)) (decide (i / 2 % 2 = 1)) (decide (i / 4 % 2 = 1))

theorem bits3_adj : ∀ i < 8, ∀ j < 8, (adj3 i j = true ↔ ∃ a < 3, bits3 i a ≠ bits3 j a ∧ ∀ b < 3, b ≠ a → bits3 i b = bits3 j b) := by
  decide +kernel

theorem bits3_inj : ∀ i < 8, ∀ j < 8, (∀ a < 3, bits3 i a = bits3 j a) → i = j := by decide +kernel

theorem bits3_surj (β : Nat → Bool) : ∃ i < 8, ∀ a < 3, β a = bits3 i a := by
  have : ∀ b0 b1 b2 : Bool, ∃ i < 8, bits3 i 0 = b0 ∧ bits3 i 1 = b1 ∧ bits3 i 2 = b2 := by decide +kernel
  obtain ⟨i, hi, h0, h1, h2⟩ := this (β 0) (β 1) (β 2)
  refine ⟨i, hi, fun a ha => ?_⟩
  have : a = 0 ∨ a = 1 ∨ a = 2 := by omega
  rcases this with rfl | rfl | rfl
  · exact h0.symm
  · exact h1.symm
  · exact h2.symm

theorem bits3_axes : ∀ i < 8, (if bits3 i 0 then 1 else 0) + (if bits3 i 1 then 1 else 0) + (if bits3 i 2 then 1 else 0) =
    axes3 i := by decide +kernel

/-- two cells of a block with a common neighbour are neither equal nor neighbours and differ along two axes -/
theorem bits3_two : ∀ i < 8, ∀ j < 8, i ≠ j → adj3 i j = true ∨
    (∃ a < 3, ∃ b < 3, a ≠ b ∧ bits3 i a ≠ bits3 j a ∧ bits3 i b ≠ bits3 j b) := by decide +kernel

/-- 3D: the block of a corner -/
theorem cube_of_corner {g : Graph W} (G : EvenGrid 3 ext n pos (Adj g.rowPtr g.colInd)) {agg : List Bool} {s order : Nat}
    {d : NMap Nat} (hl : agg.length = n) (hb : BlockSet 3 n pos (fun x => agg[x]? = some true)) (hs : agg[s]? = some false)
    (hc : Corner 3 pos (Adj g.rowPtr g.colInd) (fun x => agg[x]? = some true) s)
    (hd : ∀ x k, d.find? x = some k ↔ IsDistance (FreeAdj g.rowPtr g.colInd agg) (· = s) x k ∧ 0 < k ∧ k < order)
    (ho : (∀ x, ReachableFrom (FreeAdj g.rowPtr g.colInd agg) (· = s) x → x = s ∨ x ∈ d.keySet) ∨ 3 < order) :
    ∃ cell, Cube g d cell ∧ cell 0 = s ∧ ∀ x, x < n ∧ SameBlock 3 (pos x) (pos s) ↔ ∃ i < 8, x = cell i := by
  have hsn := lt_of_agg hs hl
  obtain ⟨hdist, hone, hnear, hsk, hpos⟩ := G.around hl hb hs hc hd ho
  choose cell hcell using fun i : Nat => G.exists_bit hsn (bits3 i)
  have hadj : ∀ x y, y ∈ rowOf g.rowPtr g.colInd x ↔ Adj g.rowPtr g.colInd x y := fun x y => adj_iff_rowOf.symm
  have hbit : ∀ x β, IsBit 3 n pos s β x → ∃ i < 8, x = cell i := by
    intro x β hx
    obtain ⟨i, hi, he⟩ := bits3_surj β
    exact ⟨i, hi, hx.inj G.grid (hcell i) he⟩
  have hblock : ∀ x, x < n → SameBlock 3 (pos x) (pos s) → ∃ i < 8, x = cell i :=
    fun x hx hxs => hbit x _ (bit_of_block hx hxs)
  have hc0 : cell 0 = s := (hcell 0).inj G.grid (IsBit.zero hsn) (by decide +kernel)
  have hinj : ∀ i < 8, ∀ j < 8, cell i = cell j → i = j := by
    intro i hi j hj he
    apply bits3_inj i hi j hj
    intro a ha
    have h1 := (hcell i).2 a ha
    have h2 := (hcell j).2 a ha
    rw [he, h2] at h1
    have := (flip2_spec (pos s a)).2.2
    cases hi' : bits3 i a <;> cases hj' : bits3 j a <;> simp [hi', hj'] at h1 ⊢ <;> omega
  have hcadj : ∀ i < 8, ∀ j < 8, (Adj g.rowPtr g.colInd (cell i) (cell j) ↔ adj3 i j = true) := by
    intro i hi j hj
    rw [(hcell i).adj G.grid (hcell j), bits3_adj i hi j hj]
  refine ⟨cell, ⟨?_, hinj, ?_, ?_, hpos, by rw [hc0]; exact hsk, ?_, ?_, ?_⟩, hc0, fun x => ⟨fun h => hblock x h.1 h.2, ?_⟩⟩
  · intro i hi j hj
    rw [hadj, hcadj i hi j hj]
  · intro i hi h0
    rw [hdist (cell i) (hcell i).1 (hcell i).block (by
      rw [← hc0]
      intro he
      have := hinj i hi 0 (by omega) he
      omega), (hcell i).l1, ← bits3_axes i hi]
    congr 1
    simp [Finset.sum_range_succ]
  · intro x hx
    obtain ⟨h1, h2⟩ := hnear x (mem_keySet_of hx) (hone x hx)
    exact hblock x h1 h2
  · intro x hx hs
    rw [hc0, hadj] at hs
    obtain ⟨h1, h2⟩ := hnear x hx hs
    exact hblock x h1 h2
  · intro x i hi j hj hij h1 h2
    rw [hadj] at h1 h2
    rcases bits3_two i hi j hj hij with h3 | ⟨a, ha, b, hb, hab, h3, h4⟩
    · exact absurd ((hcadj i hi j hj).2 h3) (G.grid.noTriangle h1 h2)
    · rcases (hcell i).common G.grid (hcell j) ha hb hab h3 h4 h1 h2 with h5 | h5
      · exact hbit x _ h5
      · exact hbit x _ h5
  · intro x y h
    rw [hadj] at h ⊢
    exact G.grid.adj_symm h
  · rintro ⟨i, _, rfl⟩
    exact ⟨(hcell i).1, (hcell i).block⟩

/-- 3D: the coarse cell grown from a corner is its block, if all the cells of a block are added first -/
theorem grown_full {E : IsoEnv W F} {Gr : NMap Nat → Nat → List Nat → Prop} (G : EvenGrid 3 ext n pos (Adj E.g.rowPtr E.g.colInd))
    (hdim : E.g.dim = 3) (hgoal : E.goalCard = 8) (hmax : E.maxCard = 8) (hmin : E.minCard ≤ 8) {agg : List Bool} {s order : Nat}
    {S : NSet} (hl : agg.length = n) (hb : BlockSet 3 n pos (fun x => agg[x]? = some true)) (hs : agg[s]? = some false)
    (hc : Corner 3 pos (Adj E.g.rowPtr E.g.colInd) (fun x => agg[x]? = some true) s)
    (hfull : ∀ d cell xs, Cube E.g d cell → cell 0 = s → Gr d 8 xs → xs.head? = some (cell 0) → xs.length = 8 →
      ∃ is, Full3 is ∧ xs = is.map cell)
    (h : GrownCell E Gr agg s order S) :
    ∀ x, x ∈ S ↔ x < n ∧ SameBlock 3 (pos x) (pos s) := by
  obtain ⟨d, hd, ho, -, -, hbig⟩ := h
  obtain ⟨cell, hcu, hc0, hmem⟩ := cube_of_corner G hl hb hs hc hd (by
    rcases ho with ho | ⟨ho, _⟩
    · exact Or.inl ho
    · right
      rw [hdim, if_neg (by omega)] at ho
      omega)
  have hsize : 7 ≤ d.size := by
    have h1 : ((List.range' 1 7).map cell).Nodup :=
      hcu.nodup (by decide) (fun i hi => by rw [List.mem_range'_1] at hi; omega)
    have := List.Subperm.length_le (List.subperm_of_subset h1 (l₂ := d.keys) (by
      intro x hx
      obtain ⟨i, hi, rfl⟩ := List.mem_map.1 hx
      rw [List.mem_range'_1] at hi
      exact mem_keySet_of (hcu.dist i (by omega) (by omega))))
    rw [NMap.size_eq_keys]
    simpa using this
  have h8 : min E.maxCard (d.size + 1) = 8 := by omega
  obtain ⟨xs, κ, m, hgr, hh, hlen, _, hκ, hbs, rfl⟩ := hbig (by omega)
  rw [h8] at hgr hlen
  rw [hlen, hgoal] at hbs
  obtain ⟨is, his, rfl⟩ := hfull d cell xs hcu hc0 hgr (by rw [hc0]; exact hh) hlen
  have hil : is.length = 8 := by simpa using hlen
  have := hcu.size his (fun j h1 h2 => hκ j h1 (by rw [hlen]; exact h2)) hmin hil hbs
  subst this
  obtain ⟨_, h2, h3, _⟩ := his
  intro x
  rw [hmem x, NSet.mem_ofList, List.take_of_length_le (by omega), List.mem_map]
  constructor
  · rintro ⟨i, hi, rfl⟩
    exact ⟨i, h2 i hi, rfl⟩
  · rintro ⟨i, hi, rfl⟩
    exact ⟨i, h3 i hi, rfl⟩

/-- 3D: the coarse cell grown from a corner is its block -/
theorem grown_cube {E : IsoEnv W F} (G : EvenGrid 3 ext n pos (Adj E.g.rowPtr E.g.colInd)) (hdim : E.g.dim = 3)
    (hext : E.nbh = .extended) (hfc : E.fcIter ≤ 1)
    (hgoal : E.goalCard = 8) (hmax : E.maxCard = 8) (hmin : E.minCard ≤ 8) {agg : List Bool} {s order : Nat} {S : NSet}
    (hl : agg.length = n) (hb : BlockSet 3 n pos (fun x => agg[x]? = some true)) (hs : agg[s]? = some false)
    (hc : Corner 3 pos (Adj E.g.rowPtr E.g.colInd) (fun x => agg[x]? = some true) s)
    (h : GrownCell E (GrownGreedily E) agg s order S) :
    ∀ x, x ∈ S ↔ x < n ∧ SameBlock 3 (pos x) (pos s) := by
  refine grown_full G hdim hgoal hmax hmin hl hb hs hc ?_ h
  rintro d cell xs hcu - ⟨f, hgr⟩ hh hlen
  obtain ⟨is, his, rfl⟩ := hcu.grown hext hfc 7 (Nat.le_refl _) hgr hh hlen
  exact ⟨is, runs3_last is his, rfl⟩

end CoMMA
