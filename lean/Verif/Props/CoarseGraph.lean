import Verif.Lemmas.CoarseRows
import Verif.Spec.Examples
/-! # C15, C16, C17, C43, C44, C45: the coarse graph -/

set_option linter.unusedSectionVars false

namespace CoMMA

variable {W : Type} [Num W]

theorem CoarseCount.exists_ok {g : MeshData W} {n : Nat} (hg : ValidData g n) {f2c : List Nat} (hf : f2c.length = n)
    {N : Nat} (hN : CoarseCount f2c N) (z : Int) :
    ∃ out D rows, buildCoarseGraph z f2c g = .ok out ∧ (∀ c ∈ g.centers, c.length = D) ∧ CoarseOk g f2c z D N rows out ∧
      out.volumes = (List.range N).map (fun k => sumW (entriesAt g.volumes (cellsOf f2c k))) := by
  obtain ⟨D, hD⟩ := hg.coords
  obtain ⟨out, h1, ⟨rows, h2⟩, h3⟩ := (buildCoarseGraph_ok hg hf z hD hN.1 hN.2).eq
  exact ⟨out, D, rows, h1, hD, h2, h3⟩

/-- **C15** Each coarse cell gets the sum of the volumes of its fine cells. -/
theorem C15_volumes {g : MeshData W} {n : Nat} (hg : ValidData g n) {f2c : List Nat} (hf : f2c.length = n)
    {N : Nat} (hN : CoarseCount f2c N) (z : Int) :
    ∃ out, buildCoarseGraph z f2c g = .ok out ∧ out.volumes.length = N ∧
      ∀ k, k < N → out.volumes[k]? = some (sumW (entriesAt g.volumes (cellsOf f2c k))) := by
  obtain ⟨out, D, rows, h1, _, _, h3⟩ := hN.exists_ok hg hf z
  refine ⟨out, h1, by rw [h3]; simp, ?_⟩
  intro k hk
  rw [h3, List.getElem?_map, List.getElem?_range hk]; rfl

/-- changing one term of a sum -/
theorem sumW_update (hW : CommAdd W) (F F' : Nat → W) (x : W) (k0 : Nat) (h0 : F' k0 = Num.add (F k0) x)
    (hne : ∀ k, k ≠ k0 → F' k = F k) (l : List Nat) (hnd : l.Nodup) :
    sumW (l.map F') = if k0 ∈ l then Num.add (sumW (l.map F)) x else sumW (l.map F) := by
  induction l using List.reverseRecOn with
  | nil => simp [sumW]
  | append_singleton l a ih =>
    have hnd' : l.Nodup := (List.nodup_append.1 hnd).1
    have ha : a ∉ l := by
      intro hal
      have := (List.nodup_append.1 hnd).2.2 a hal a (by simp)
      exact this rfl
    simp only [List.map_append, List.map_cons, List.map_nil, sumW_append, ih hnd']
    by_cases hk : k0 = a
    · subst hk
      rw [if_neg ha, if_pos (by simp), h0, hW.assoc]
    · rw [hne a (fun h => hk h.symm)]
      by_cases hkl : k0 ∈ l
      · rw [if_pos hkl, if_pos (by simp [hkl]), hW.assoc, hW.comm x, ← hW.assoc]
      · rw [if_neg hkl, if_neg (by simp [hkl, hk])]

/-- **C15** The total volume is conserved, in exact arithmetic. -/
theorem C15_total (hW : CommAdd W) {g : MeshData W} {n : Nat} (hg : ValidData g n) {f2c : List Nat} (hf : f2c.length = n)
    {N : Nat} (hN : CoarseCount f2c N) (z : Int) :
    ∃ out, buildCoarseGraph z f2c g = .ok out ∧ sumW out.volumes = sumW g.volumes := by
  obtain ⟨out, D, rows, h1, _, _, h3⟩ := hN.exists_ok hg hf z
  refine ⟨out, h1, ?_⟩
  rw [h3]
  have key : ∀ m, m ≤ n → sumW ((List.range N).map (fun k => sumW (entriesAt g.volumes
      ((List.range m).filter (fun i => decide (f2c[i]? = some k)))))) = sumW (g.volumes.take m) := by
    intro m
    induction m with
    | zero =>
      intro _
      have : ∀ N, sumW ((List.range N).map (fun _ => (Num.ofNat 0 : W))) = Num.ofNat 0 := by
        intro N
        induction N with
        | zero => rfl
        | succ N ih => rw [List.range_succ, List.map_append, List.map_cons, List.map_nil, sumW_append, ih, hW.zero]
      simpa [entriesAt, sumW] using this N
    | succ m ih =>
      intro hm
      have hmf : m < f2c.length := by omega
      have hmv : m < g.volumes.length := by rw [hg.volumes]; omega
      have hfm := List.getElem?_eq_getElem hmf
      rw [List.take_succ, List.getElem?_eq_getElem hmv, Option.toList_some, sumW_append, ← ih (by omega)]
      refine (sumW_update hW _ _ g.volumes[m] f2c[m] ?_ ?_ _ List.nodup_range).trans (if_pos ?_)
      · rw [List.range_succ, List.filter_append]
        simp [hfm, entriesAt, List.getElem?_eq_getElem hmv, sumW_append]
      · intro k hk
        rw [List.range_succ, List.filter_append]
        simp [hfm, Ne.symm hk]
      · rw [List.mem_range]; exact hN.1 _ (List.getElem_mem hmf)
  have := key n (Nat.le_refl n)
  rw [List.take_of_length_le (by rw [hg.volumes]; omega)] at this
  rw [← this]
  unfold cellsOf
  rw [hf]

/-- **C16** Two coarse cells are neighbours exactly when they are distinct and some fine cell
of one has a neighbour in the other.  The result is a compressed graph on the coarse cells,
with strictly increasing rows; it is symmetric if the fine graph is. -/
theorem C16_adjacency {g : MeshData W} {n : Nat} (hg : ValidData g n) {f2c : List Nat} (hf : f2c.length = n)
    {N : Nat} (hN : CoarseCount f2c N) (z : Int) :
    ∃ out, buildCoarseGraph z f2c g = .ok out ∧ ValidCRS N out.adjIdx out.adj ∧
      (∀ k, (rowOf out.adjIdx out.adj k).Pairwise (· < ·)) ∧ out.weights.length = out.adj.length ∧
      (∀ k l, Adj out.adjIdx out.adj k l ↔
        k ≠ l ∧ ∃ i j : Nat, f2c[i]? = some k ∧ f2c[j]? = some l ∧ Adj g.adjIdx g.adj i j) ∧
      (SymmetricCRS g.adjIdx g.adj → SymmetricCRS out.adjIdx out.adj) := by
  obtain ⟨out, D, rows, h1, _, h2, _⟩ := hN.exists_ok hg hf z
  refine ⟨out, h1, h2.crs hg hf hN.1, h2.sorted, h2.weights_length, h2.adj_iff hg hf hN.1, ?_⟩
  intro hsym k l hkl
  rw [h2.adj_iff hg hf hN.1] at hkl ⊢
  obtain ⟨h3, i, j, hi, hj, hij⟩ := hkl
  exact ⟨Ne.symm h3, j, i, hj, hi, hsym i j hij⟩

/-- **C17** (part) The weight of a coarse edge, at position `p` of the output, is the sum over
the crossing fine edges `i → j` of the weight stored at position `j`.  It is the total weight
of the crossing edges if those weights agree, for instance if all weights are equal.
Missing: the sum of the weights of the crossing edges in general; the code reads the weights
at the index of the neighbouring cell, see `C17_counterexample`. -/
theorem C17_weights_partial {g : MeshData W} {n : Nat} (hg : ValidData g n) {f2c : List Nat} (hf : f2c.length = n)
    {N : Nat} (hN : CoarseCount f2c N) (z : Int) :
    ∃ out, buildCoarseGraph z f2c g = .ok out ∧
      ∀ k l p, p ∈ positions out.adjIdx k → out.adj[p]? = some l →
        out.weights[p]? = some (sumW ((crossings g.adjIdx g.adj f2c k l).filterMap
          (fun q => (g.adj[q]?).bind (fun j => g.weights[j]?)))) ∧
        ((∀ q ∈ crossings g.adjIdx g.adj f2c k l, (g.adj[q]?).bind (fun j => g.weights[j]?) = g.weights[q]?) →
          out.weights[p]? = some (sumW (entriesAt g.weights (crossings g.adjIdx g.adj f2c k l)))) := by
  obtain ⟨out, D, rows, h1, _, h2, _⟩ := hN.exists_ok hg hf z
  refine ⟨out, h1, ?_⟩
  intro k l p hp hl
  have := h2.weight hg hf hp hl
  refine ⟨this, ?_⟩
  intro heq
  rw [this]
  unfold entriesAt
  rw [List.filterMap_congr heq]

/-- three cells in a row; the edge 0-1 has weight 5, the edge 1-2 has weight 7 -/
def exLine3 : MeshData Int :=
  ⟨[0, 1, 3, 4], [1, 0, 2, 1], [5, 5, 7, 7], [1, 2, 3], [[0], [10], [20]], [1, 1, 1], [1, 0, 1]⟩

/-- four cells, one edge 2-3 -/
def exIsolated : MeshData Int :=
  ⟨[0, 0, 0, 1, 2], [3, 2], [5, 5], [1, 1, 1, 1], [[0], [1], [2], [3]], [1, 1, 1, 1], [1, 1, 1, 1]⟩

theorem exLine3_valid : ValidData exLine3 3 where
  pos := by decide
  crs := checkCRS_sound (by decide)
  volumes := rfl
  centers := rfl
  priority := rfl
  nBnd := rfl
  coords := ⟨1, by decide⟩
  cover := by decide

/-- **C17 fails.** Cells 0 and 1 form coarse cell 0, cell 2 is coarse cell 1.  The only crossing
edge has weight 7, but the coarse graph has weight 7 in one direction and 5 in the other. -/
theorem C17_counterexample :
    ∃ out, buildCoarseGraph (-100) [0, 0, 1] exLine3 = .ok out ∧ out.adj = [1, 0] ∧ out.weights = [7, 5] ∧
      sumW (entriesAt exLine3.weights (crossings exLine3.adjIdx exLine3.adj [0, 0, 1] 1 0)) = 7 := by
  refine ⟨_, rfl, ?_⟩
  decide

/-- **C17 fails.** On a symmetric valid graph that is not connected the weight is read past the
end of the vector. -/
theorem C17_out_of_bounds :
    ValidCRS 4 exIsolated.adjIdx exIsolated.adj ∧ SymmetricCRS exIsolated.adjIdx exIsolated.adj ∧
      exIsolated.weights.length = exIsolated.adj.length ∧
      buildCoarseGraph (-100) [0, 1, 2, 3] exIsolated = .error .ub := by
  have h : ValidCRS 4 exIsolated.adjIdx exIsolated.adj := checkCRS_sound (by decide)
  refine ⟨h, checkSym_sound h (by decide), rfl, rfl⟩

/-- `m` is the largest element of `l` -/
def IsLargest (l : List Int) (m : Int) : Prop := m ∈ l ∧ ∀ x ∈ l, x ≤ m

theorem foldl_maxI (l : List Int) (z : Int) (hz : ∀ x ∈ l, z ≤ x) (hl : l ≠ []) : IsLargest l (l.foldl maxI z) := by
  have key : ∀ (l : List Int) (z : Int), (l.foldl maxI z = z ∨ l.foldl maxI z ∈ l) ∧ z ≤ l.foldl maxI z ∧
      ∀ x ∈ l, x ≤ l.foldl maxI z := by
    intro l
    induction l with
    | nil => intro z; simp
    | cons a l ih =>
      intro z
      obtain ⟨h1, h2, h3⟩ := ih (maxI z a)
      have h4 : z ≤ maxI z a ∧ a ≤ maxI z a ∧ (maxI z a = z ∨ maxI z a = a) := by
        unfold maxI; split <;> simp <;> omega
      rw [List.foldl_cons]
      refine ⟨?_, by omega, ?_⟩
      · rcases h1 with h1 | h1
        · rw [h1]; rcases h4.2.2 with h | h
          · exact Or.inl h
          · exact Or.inr (by rw [h]; simp)
        · exact Or.inr (List.mem_cons_of_mem _ h1)
      · intro x hx
        rcases List.mem_cons.1 hx with rfl | hx
        · omega
        · exact h3 x hx
  obtain ⟨h1, h2, h3⟩ := key l z
  refine ⟨?_, h3⟩
  rcases h1 with h1 | h1
  · obtain ⟨x, hx⟩ := List.exists_mem_of_ne_nil l hl
    have := h3 x hx
    have := hz x hx
    have : l.foldl maxI z = x := by omega
    rw [this]; exact hx
  · exact h1

/-- **C43** The number of boundary faces of a coarse cell is the largest of its fine cells. -/
theorem C43_boundary {g : MeshData W} {n : Nat} (hg : ValidData g n) {f2c : List Nat} (hf : f2c.length = n)
    {N : Nat} (hN : CoarseCount f2c N) {z : Int} (hz : ∀ b ∈ g.nBnd, z ≤ b) :
    ∃ out, buildCoarseGraph z f2c g = .ok out ∧ out.nBnd.length = N ∧
      ∀ k ∈ f2c, ∃ b, out.nBnd[k]? = some b ∧ IsLargest (entriesAt g.nBnd (cellsOf f2c k)) b := by
  obtain ⟨out, D, rows, h1, _, h2, _⟩ := hN.exists_ok hg hf z
  refine ⟨out, h1, by rw [h2.nBnd]; simp, ?_⟩
  intro k hk
  refine ⟨_, by rw [h2.nBnd, List.getElem?_map, List.getElem?_range (hN.1 k hk)]; rfl, ?_⟩
  obtain ⟨i, hi⟩ := List.mem_iff_getElem?.1 hk
  have hil : i < g.nBnd.length := by rw [hg.nBnd, ← hf]; exact (List.getElem?_eq_some_iff.1 hi).1
  refine foldl_maxI _ _ ?_ ?_
  · intro x hx
    unfold entriesAt at hx
    obtain ⟨j, _, hj⟩ := List.mem_filterMap.1 hx
    exact hz x (List.mem_of_getElem? hj)
  · apply List.ne_nil_of_mem (a := g.nBnd[i])
    exact List.mem_filterMap.2 ⟨i, mem_cellsOf.2 hi, List.getElem?_eq_getElem hil⟩

/-- `m` is an entry of `l` and no entry is larger -/
def IsLargestW (l : List W) (m : W) : Prop := m ∈ l ∧ ∀ x ∈ l, Num.lt m x = false

theorem foldl_maxW (hW : LawfulLt W) (l : List W) (z : W) : (l.foldl maxW z = z ∨ l.foldl maxW z ∈ l) ∧
    Num.lt (l.foldl maxW z) z = false ∧ ∀ x ∈ l, Num.lt (l.foldl maxW z) x = false := by
  have tr : ∀ a b c : W, Num.lt a b = false → Num.lt b c = false → Num.lt a c = false := by
    intro a b c h1 h2
    by_contra h3
    have h3 : Num.lt a c = true := by simpa using h3
    cases h4 : Num.lt b a with
    | true => rw [hW.trans _ _ _ h4 h3] at h2; cases h2
    | false =>
      have := hW.total _ _ h1 h4
      subst this
      rw [h3] at h2; cases h2
  induction l generalizing z with
  | nil => simp [hW.irrefl]
  | cons a l ih =>
    obtain ⟨h1, h2, h3⟩ := ih (maxW z a)
    have h4 : Num.lt (maxW z a) z = false ∧ Num.lt (maxW z a) a = false ∧ (maxW z a = z ∨ maxW z a = a) := by
      unfold maxW
      split
      · rename_i h
        refine ⟨?_, hW.irrefl _, Or.inr rfl⟩
        by_contra h5
        have h5 : Num.lt a z = true := by simpa using h5
        have := hW.trans _ _ _ h h5
        rw [hW.irrefl] at this; cases this
      · rename_i h
        exact ⟨hW.irrefl _, by simpa using h, Or.inl rfl⟩
    rw [List.foldl_cons]
    refine ⟨?_, tr _ _ _ h2 h4.1, ?_⟩
    · rcases h1 with h1 | h1
      · rw [h1]; rcases h4.2.2 with h | h
        · exact Or.inl h
        · exact Or.inr (by rw [h]; simp)
      · exact Or.inr (List.mem_cons_of_mem _ h1)
    · intro x hx
      rcases List.mem_cons.1 hx with rfl | hx
      · exact tr _ _ _ h2 h4.2.1
      · exact h3 x hx

/-- **C44** (part) The priority of a coarse cell is the largest of its fine cells, if one of them is
not below the smallest positive number.  Missing: cells all below it, where the code gives
the smallest positive number, see `C44_counterexample`. -/
theorem C44_priority_partial (hW : LawfulLt W) {g : MeshData W} {n : Nat} (hg : ValidData g n) {f2c : List Nat}
    (hf : f2c.length = n) {N : Nat} (hN : CoarseCount f2c N) (z : Int) :
    ∃ out, buildCoarseGraph z f2c g = .ok out ∧ out.priority.length = N ∧
      ∀ k ∈ f2c, ∃ b, out.priority[k]? = some b ∧
        ((∃ w ∈ entriesAt g.priority (cellsOf f2c k), Num.lt w Num.lmin = false) →
          IsLargestW (entriesAt g.priority (cellsOf f2c k)) b) ∧
        ((∀ w ∈ entriesAt g.priority (cellsOf f2c k), Num.lt w Num.lmin = true) → b = Num.lmin) := by
  obtain ⟨out, D, rows, h1, _, h2, _⟩ := hN.exists_ok hg hf z
  refine ⟨out, h1, by rw [h2.priority]; simp, ?_⟩
  intro k hk
  refine ⟨(entriesAt g.priority (cellsOf f2c k)).foldl maxW Num.lmin, by rw [h2.priority, List.getElem?_map, List.getElem?_range (hN.1 k hk)]; rfl, ?_⟩
  obtain ⟨h3, h4, h5⟩ := foldl_maxW hW (entriesAt g.priority (cellsOf f2c k)) Num.lmin
  constructor
  · rintro ⟨w, hw, hwl⟩
    refine ⟨?_, h5⟩
    rcases h3 with h3 | h3
    · have := h5 w hw
      rw [h3] at this
      have := hW.total _ _ hwl this
      rw [h3, ← this]; exact hw
    · exact h3
  · intro hall
    rcases h3 with h3 | h3
    · exact h3
    · rw [hall _ h3] at h4; cases h4

/-- a mesh of two cells with priorities 0 -/
def exLow : MeshData Int := ⟨[0, 1, 2], [1, 0], [5, 5], [1, 2], [[0], [10]], [0, 0], [1, 1]⟩

/-- **C44 fails.** Two cells with priority 0 form a coarse cell with a positive priority. -/
theorem C44_counterexample : ∃ out, buildCoarseGraph (-100) [0, 0] exLow = .ok out ∧
    out.priority = [1] ∧ entriesAt exLow.priority (cellsOf [0, 0] 0) = [0, 0] := ⟨_, rfl, by decide⟩

/-- coordinate `j` of a fine cell times its volume -/
def weighted (g : MeshData W) (j i : Nat) : Option W :=
  (g.volumes[i]?).bind (fun v => (g.centers[i]?).bind (fun x => (x[j]?).map (fun y => Num.mul v y)))

/-- **C45** (part) Coordinate `j` of the center of a coarse cell is the sum of volume times coordinate
over its fine cells, times the inverse of the *number* of fine cells.
Missing: the barycenter, divided by the volume of the coarse cell, see `C45_counterexample`. -/
theorem C45_centers_partial {g : MeshData W} {n : Nat} (hg : ValidData g n) {f2c : List Nat} (hf : f2c.length = n)
    {N D : Nat} (hN : CoarseCount f2c N) (hD : ∀ c ∈ g.centers, c.length = D) (z : Int) :
    ∃ out, buildCoarseGraph z f2c g = .ok out ∧ out.centers.length = N ∧
      ∀ k, k < N → ∃ c, out.centers[k]? = some c ∧ c.length = D ∧
        ∀ j, j < D → c[j]? = some (Num.mul (sumW ((cellsOf f2c k).filterMap (weighted g j)))
          (Num.div (Num.ofNat 1) (Num.ofNat (cellsOf f2c k).length))) := by
  obtain ⟨out, h1, ⟨rows, h2⟩, h3⟩ := (buildCoarseGraph_ok hg hf z hD hN.1 hN.2).eq
  refine ⟨out, h1, by rw [h2.centers]; simp, ?_⟩
  intro k hk
  refine ⟨_, by rw [h2.centers, List.getElem?_map, List.getElem?_range hk]; rfl, by simp [moments], ?_⟩
  intro j hj
  unfold moments
  rw [List.getElem?_map, List.getElem?_map, List.getElem?_range hj]
  rfl

/-- **C45 fails.** One cell with volume 2 and center 10 alone in its coarse cell: the center of
the coarse cell is 20. -/
theorem C45_counterexample : ∃ out, buildCoarseGraph (-100) [0, 1] exLow = .ok out ∧
    exLow.centers[1]? = some [10] ∧ out.centers[1]? = some [20] := ⟨_, rfl, by decide⟩

theorem exCommAdd : CommAdd Int where
  comm a b := Int.add_comm a b
  assoc a b c := Int.add_assoc a b c
  zero a := Int.zero_add a

/-- the hypotheses of C15, C16, C17, C43, C44 and C45 are met -/
example : ValidData exLine3 3 ∧ CoarseCount [0, 0, 1] 2 ∧ CommAdd Int ∧ LawfulLt Int ∧
    (∀ b ∈ exLine3.nBnd, (-100 : Int) ≤ b) ∧ ∀ c ∈ exLine3.centers, c.length = 1 :=
  ⟨exLine3_valid, ⟨by decide, by decide⟩, exCommAdd, exLawful, by decide, by decide⟩

/-- two crossing edges with weights that agree: the second part of C17 applies -/
example : ∃ g : MeshData Int, ValidData g 4 ∧ CoarseCount [0, 0, 1, 1] 2 ∧
    (crossings g.adjIdx g.adj [0, 0, 1, 1] 0 1).length = 2 ∧
    ∀ q ∈ crossings g.adjIdx g.adj [0, 0, 1, 1] 0 1, (g.adj[q]?).bind (fun j => g.weights[j]?) = g.weights[q]? :=
  ⟨⟨[0, 2, 4, 6, 8], [1, 2, 0, 3, 0, 3, 1, 2], [2, 3, 3, 3, 3, 2, 3, 2], [1, 1, 1, 1], [[0], [1], [2], [3]],
    [1, 1, 1, 1], [0, 0, 0, 0]⟩, ⟨by decide, checkCRS_sound (by decide), rfl, rfl, rfl, rfl, ⟨1, by decide⟩, by decide⟩,
    ⟨by decide, by decide⟩, by decide, by decide⟩

end CoMMA
