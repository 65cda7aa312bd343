import Verif.Props.Hierarchy
import Verif.Spec.Skipping
/-! # C77: the coarsest graph can be built at once -/

set_option linter.unusedSectionVars false

namespace CoMMA

variable {W : Type} [Num W]

/-- folds of folds -/
theorem foldl_folds {α : Type} (op : α → α → α) (hc : ∀ a b, op a b = op b a)
    (ha : ∀ a b c, op (op a b) c = op a (op b c)) (z : α) (hz : op z z = z) (f : Nat → List α) (l : List Nat) :
    (l.map (fun i => (f i).foldl op z)).foldl op z = (l.flatMap f).foldl op z := by
  have hpull : ∀ (l : List α) (x y : α), l.foldl op (op x y) = op x (l.foldl op y) := by
    intro l
    induction l with
    | nil => intro x y; rfl
    | cons a l ih => intro x y; rw [List.foldl_cons, List.foldl_cons, ha, ih]
  have hzz : ∀ l : List α, op z (l.foldl op z) = l.foldl op z := by
    intro l
    rw [← hpull, hz]
  induction l with
  | nil => rfl
  | cons i l ih =>
    rw [List.map_cons, List.foldl_cons, List.flatMap_cons, List.foldl_append, hc z, hpull, ih, ← hpull, hc, hzz]

theorem maxI_comm (a b : Int) : maxI a b = maxI b a := by unfold maxI; split <;> split <;> omega

theorem maxI_assoc (a b c : Int) : maxI (maxI a b) c = maxI a (maxI b c) := by
  unfold maxI; repeat' split
  all_goals omega

theorem maxW_comm (hW : LawfulLt W) (a b : W) : maxW a b = maxW b a := by
  unfold maxW
  cases h1 : Num.lt a b with
  | true =>
    cases h2 : Num.lt b a with
    | true => have := hW.trans _ _ _ h1 h2; rw [hW.irrefl] at this; cases this
    | false => simp
  | false =>
    cases h2 : Num.lt b a with
    | true => simp
    | false => simp [hW.total _ _ h1 h2]

theorem maxW_spec (hW : LawfulLt W) (l : List W) (z : W) {m : W} (h1 : m = z ∨ m ∈ l) (h2 : Num.lt m z = false)
    (h3 : ∀ x ∈ l, Num.lt m x = false) : l.foldl maxW z = m := by
  obtain ⟨e1, e2, e3⟩ := foldl_maxW hW l z
  refine hW.total _ _ ?_ ?_
  · rcases h1 with rfl | h1
    · exact e2
    · exact e3 _ h1
  · rcases e1 with e1 | e1
    · rw [e1]; exact h2
    · exact h3 _ e1

theorem maxW_assoc (hW : LawfulLt W) (a b c : W) : maxW (maxW a b) c = maxW a (maxW b c) := by
  have e1 : maxW (maxW a b) c = [b, c].foldl maxW a := rfl
  have e2 : maxW a (maxW b c) = [b, a].foldl maxW c := by
    rw [maxW_comm hW a, maxW_comm hW b]; rfl
  rw [e1, e2]
  obtain ⟨h1, h2, h3⟩ := foldl_maxW hW [b, a] c
  refine maxW_spec hW _ _ ?_ (h3 a (by simp)) ?_
  · rcases h1 with h1 | h1
    · exact Or.inr (by simp [h1])
    · simp only [List.mem_cons, List.not_mem_nil, or_false] at h1 ⊢
      tauto
  · intro x hx
    simp only [List.mem_cons, List.not_mem_nil, or_false] at hx
    rcases hx with rfl | rfl
    · exact h3 _ (by simp)
    · exact h2

/-- the finest cells of a coarsest cell -/
theorem cellsOf_compose {f1 f2 F : List Nat} {n N : Nat} (h1 : f1.length = n) (hN : ∀ k ∈ f1, k < N) (h2 : f2.length = N)
    (hF : F.length = n) (hc : ∀ i, i < n → F[i]? = composeMaps [f1, f2] i) (k : Nat) :
    (cellsOf F k).Perm ((cellsOf f2 k).flatMap (cellsOf f1)) := by
  refine (List.perm_ext_iff_of_nodup ((cellsOf_sorted F k).imp (fun h => Nat.ne_of_lt h)) ?_).2 ?_
  · rw [List.nodup_flatMap]
    refine ⟨fun i _ => (cellsOf_sorted f1 i).imp (fun h => Nat.ne_of_lt h), ?_⟩
    refine (cellsOf_sorted f2 k).imp ?_
    intro a b hab x hx hy
    rw [mem_cellsOf] at hx hy
    rw [hx] at hy
    injection hy with hy
    omega
  · intro x
    rw [mem_cellsOf, List.mem_flatMap]
    constructor
    · intro hx
      have hlt : x < n := by rw [← hF]; exact (List.getElem?_eq_some_iff.1 hx).1
      rw [hc x hlt] at hx
      have hx1 : x < f1.length := by omega
      simp only [composeMaps, List.getElem?_eq_getElem hx1, Option.bind_some] at hx
      have hx2 : f1[x] < f2.length := by rw [h2]; exact hN _ (List.getElem_mem hx1)
      rw [List.getElem?_eq_getElem hx2, Option.bind_some] at hx
      exact ⟨f1[x], mem_cellsOf.2 (by rw [List.getElem?_eq_getElem hx2]; exact hx), mem_cellsOf.2 (List.getElem?_eq_getElem hx1)⟩
    · rintro ⟨i, hi, hx⟩
      rw [mem_cellsOf] at hi hx
      have hlt : x < n := by rw [← h1]; exact (List.getElem?_eq_some_iff.1 hx).1
      rw [hc x hlt]
      simp [composeMaps, hx, hi]

theorem entriesAt_flatMap {α : Type} (v : List α) (l : List Nat) (f : Nat → List Nat) :
    entriesAt v (l.flatMap f) = l.flatMap (fun i => entriesAt v (f i)) := by
  unfold entriesAt
  rw [List.filterMap_flatMap]

/-- folding a quantity in two steps or at once -/
theorem fold_compose {α : Type} (op : α → α → α) (hc : ∀ a b, op a b = op b a)
    (ha : ∀ a b c, op (op a b) c = op a (op b c)) (z : α) (hz : op z z = z) {f1 f2 F : List Nat} {n N : Nat}
    (h1 : f1.length = n) (hN : ∀ k ∈ f1, k < N) (h2 : f2.length = N)
    (hF : F.length = n) (hcm : ∀ i, i < n → F[i]? = composeMaps [f1, f2] i) (v v1 : List α)
    (hv : v1 = (List.range N).map (fun k => (entriesAt v (cellsOf f1 k)).foldl op z)) (k : Nat) :
    (entriesAt v1 (cellsOf f2 k)).foldl op z = (entriesAt v (cellsOf F k)).foldl op z := by
  have e1 : entriesAt v1 (cellsOf f2 k) = (cellsOf f2 k).map (fun i => (entriesAt v (cellsOf f1 i)).foldl op z) := by
    unfold entriesAt
    rw [← List.filterMap_eq_map]
    refine List.filterMap_congr ?_
    intro i hi
    have hi' : i < N := by rw [← h2]; exact (List.getElem?_eq_some_iff.1 (mem_cellsOf.1 hi)).1
    rw [hv, List.getElem?_map, List.getElem?_range hi']
    rfl
  rw [e1, foldl_folds op hc ha z hz, ← entriesAt_flatMap]
  have hp : (entriesAt v ((cellsOf f2 k).flatMap (cellsOf f1))).Perm (entriesAt v (cellsOf F k)) :=
    (cellsOf_compose h1 hN h2 hF hcm k).symm.filterMap _
  have : RightCommutative op := ⟨fun a b c => by rw [ha, hc b, ← ha]⟩
  exact hp.foldl_eq z

/-- a list of neighbours is determined by the neighbours -/
theorem CoarseOk.rows_eq {g1 g2 : MeshData W} {f f' : List Nat} {z z' : Int} {D D' N : Nat} {rows rows' : List (NMap W)}
    {out out' : MeshData W} (h : CoarseOk g1 f z D N rows out) (h' : CoarseOk g2 f' z' D' N rows' out')
    (he : ∀ (k : Nat) (m m' : NMap W), rows[k]? = some m → rows'[k]? = some m' → ∀ l, l ∈ m.keys ↔ l ∈ m'.keys) :
    rows.map NMap.keys = rows'.map NMap.keys := by
  refine List.ext_getElem (by rw [List.length_map, List.length_map, h.len, h'.len]) ?_
  intro k h1 h2
  rw [List.length_map] at h1 h2
  rw [List.getElem_map, List.getElem_map]
  have := he k _ _ (List.getElem?_eq_getElem h1) (List.getElem?_eq_getElem h2)
  exact sorted_ext (NMap.keys_sorted _) (NMap.keys_sorted _) this

/-- **C77** (two levels) Building the coarse graph of the coarse graph is building it at once from the
composed map. -/
theorem C77_two_levels_partial {g : MeshData W} {n : Nat} (hg : GoodMesh g n) {f1 f2 F : List Nat} {N1 N2 : Nat}
    (h1 : f1.length = n) (hN1 : ∀ k, k ∈ f1 ↔ k < N1) (h2 : f2.length = N1) (hN2 : ∀ k, k ∈ f2 ↔ k < N2)
    (hF : F.length = n) (hc : ∀ i, i < n → F[i]? = composeMaps [f1, f2] i) {z : Int} (hz : z ≤ 0) :
    ∃ g1 g2 g', buildCoarseGraph z f1 g = .ok g1 ∧ buildCoarseGraph z f2 g1 = .ok g2 ∧
      buildCoarseGraph z F g = .ok g' ∧ SameMesh g2 g' := by
  have hcount : ∀ {f : List Nat} {n N : Nat}, f.length = n → 0 < n → (∀ k, k ∈ f ↔ k < N) → CoarseCount f N := by
    intro f n N hf hn hN
    have h0 : 0 < f.length := by omega
    have := (hN f[0]).1 (List.getElem_mem h0)
    exact ⟨fun k hk => (hN k).1 hk, (hN _).2 (by omega)⟩
  obtain ⟨g1, e1, hg1, _⟩ := C18_coarse_mesh hg h1 hN1 hz
  have hv := hg.validData
  have hv1 := hg1.validData
  have hc1 := hcount h1 hg.pos hN1
  have hc2 := hcount h2 hg1.pos hN2
  obtain ⟨g1', D1, rows1, e1', hD1, c1, v1⟩ := hc1.exists_ok hv h1 z
  rw [e1] at e1'
  injection e1' with e1'
  subst e1'
  obtain ⟨g2, D2, rows2, e2, hD2, c2, v2⟩ := hc2.exists_ok hv1 h2 z
  have hFN : ∀ k, k ∈ F ↔ k < N2 := by
    intro k
    rw [← hN2]
    constructor
    · intro hk
      obtain ⟨x, hx⟩ := List.mem_iff_getElem?.1 hk
      obtain ⟨i, hi, _⟩ := List.mem_flatMap.1 ((cellsOf_compose h1 (fun k hk => (hN1 k).1 hk) h2 hF hc k).mem_iff.1 (mem_cellsOf.2 hx))
      exact List.mem_of_getElem? (mem_cellsOf.1 hi)
    · intro hk
      obtain ⟨i, hi⟩ := List.mem_iff_getElem?.1 hk
      have hi' : i < N1 := by rw [← h2]; exact (List.getElem?_eq_some_iff.1 hi).1
      obtain ⟨x, hx⟩ := List.mem_iff_getElem?.1 ((hN1 i).2 hi')
      have := (cellsOf_compose h1 (fun k hk => (hN1 k).1 hk) h2 hF hc k).mem_iff.2
        (List.mem_flatMap.2 ⟨i, mem_cellsOf.2 hi, mem_cellsOf.2 hx⟩)
      exact List.mem_of_getElem? (mem_cellsOf.1 this)
  have hcF := hcount hF hg.pos hFN
  obtain ⟨g', D', rows', e', hD', c', v'⟩ := hcF.exists_ok hv hF z
  refine ⟨g1, g2, g', e1, e2, e', ?_⟩
  have hcell : ∀ x k : Nat, F[x]? = some k ↔ ∃ i : Nat, f1[x]? = some i ∧ f2[i]? = some k := by
    intro x k
    have := (cellsOf_compose h1 (fun k hk => (hN1 k).1 hk) h2 hF hc k).mem_iff (a := x)
    simp only [mem_cellsOf, List.mem_flatMap] at this
    rw [this]
    exact exists_congr (fun i => And.comm)
  have hrows : rows2.map NMap.keys = rows'.map NMap.keys := by
    refine c2.rows_eq c' ?_
    intro k m m' hm hm' l
    rw [c2.keys hv1 h2 hm, c'.keys hv hF hm']
    refine and_congr_right (fun hkl => ?_)
    constructor
    · rintro ⟨i, j, hi, hj, hij⟩
      obtain ⟨_, x, y, hx, hy, hxy⟩ := (c1.adj_iff hv h1 hc1.1 i j).1 hij
      exact ⟨x, y, (hcell x k).2 ⟨i, hx, hi⟩, (hcell y l).2 ⟨j, hy, hj⟩, hxy⟩
    · rintro ⟨x, y, hx, hy, hxy⟩
      obtain ⟨i, hxi, hi⟩ := (hcell x k).1 hx
      obtain ⟨j, hyj, hj⟩ := (hcell y l).1 hy
      refine ⟨i, j, hi, hj, (c1.adj_iff hv h1 hc1.1 i j).2 ⟨?_, x, y, hxi, hyj, hxy⟩⟩
      rintro rfl
      rw [hi] at hj
      injection hj with hj
      exact hkl hj
  have hN1' : ∀ k ∈ f1, k < N1 := fun k hk => (hN1 k).1 hk
  refine ⟨by rw [c2.adjIdx, c'.adjIdx, hrows], by rw [c2.adj, c'.adj, hrows], ?_, ?_, ?_⟩
  · rw [c2.nBnd, c'.nBnd]
    refine List.map_congr_left (fun k _ => ?_)
    exact fold_compose maxI maxI_comm maxI_assoc z (by simp [maxI]) h1 hN1' h2 hF hc g.nBnd g1.nBnd c1.nBnd k
  · intro hW
    rw [v2, v']
    refine List.map_congr_left (fun k _ => ?_)
    exact fold_compose Num.add hW.comm hW.assoc _ (hW.zero _) h1 hN1' h2 hF hc g.volumes g1.volumes v1 k
  · intro hW
    rw [c2.priority, c'.priority]
    refine List.map_congr_left (fun k _ => ?_)
    exact fold_compose maxW (maxW_comm hW) (maxW_assoc hW) _ (by simp [maxW]) h1 hN1' h2 hF hc g.priority
      g1.priority c1.priority k

/-- **C77** Any number of levels (at least one): the coarsest graph of a hierarchy has the same
neighbours, boundary faces, volumes and priorities as the graph built at once from the finest
mesh and the map from finest to coarsest cells.
Missing: weights of the faces and centers, for which it is false, see the counterexamples. -/
theorem C77_levels_partial {P : Platform} {z : Int} (hz : z ≤ 0) (hirr : Num.lt (Num.lmin : W) Num.lmin = false)
    {above : Prop} (levels : List (MeshData W → Outs → Args W)) (hne : levels ≠ []) {n : Nat} {g : MeshData W}
    (hg : GoodMesh g n) (hab : above → PrioritiesAbove g)
    (hl : ∀ s ∈ levels, ∀ g' o' n', GoodMesh g' n' → n' ≤ n → (above → PrioritiesAbove g') →
      KnownCall P ((s g' o').onMesh g') o' n') (o : Outs) :
    ∃ maps gN F g', runLevels P z levels g o = .ok (maps, gN) ∧ F.length = n ∧
      (∀ i, i < n → F[i]? = composeMaps maps i) ∧ buildCoarseGraph z F g = .ok g' ∧ SameMesh gN g' := by
  suffices h : ∃ maps gN F g' N, runLevels P z levels g o = .ok (maps, gN) ∧ F.length = n ∧ (∀ k, k ∈ F ↔ k < N) ∧
      (∀ i, i < n → F[i]? = composeMaps maps i) ∧ buildCoarseGraph z F g = .ok g' ∧ SameMesh gN g' by
    obtain ⟨maps, gN, F, g', N, h1, h2, _, h3⟩ := h
    exact ⟨maps, gN, F, g', h1, h2, h3⟩
  induction levels generalizing n g o with
  | nil => exact absurd rfl hne
  | cons s r ih =>
    obtain ⟨out, g1, N, h⟩ := level_made hz hg (hl s (by simp) g o n hg (Nat.le_refl n) hab)
    have hle := h.le
    by_cases hr : r = []
    · subst hr
      refine ⟨[out.fcToCc], g1, out.fcToCc, g1, N, ?_, h.len, h.all, ?_, h.build, ⟨rfl, rfl, rfl, fun _ => rfl, fun _ => rfl⟩⟩
      · unfold runLevels
        rw [h.call]
        simp only [h.build]
        rfl
      · intro i hi
        have hi' : i < out.fcToCc.length := by rw [h.len]; exact hi
        simp [composeMaps, List.getElem?_eq_getElem hi']
    · obtain ⟨maps, gN, F2, g2, N2, e1, e2, e3, e4, e5, e6⟩ := ih hr h.good (fun hh => h.above hirr (hab hh))
        (fun s hs g' o' n' hg' hn' => hl s (List.mem_cons_of_mem _ hs) g' o' n' hg' (by omega)) out
      have hF2 : ∀ x ∈ out.fcToCc, x < F2.length := fun x hx => by rw [e2]; exact (h.all x).1 hx
      have hget : ∀ i, i < n → (out.fcToCc.map (fun x => F2[x]?.getD 0))[i]? = composeMaps [out.fcToCc, F2] i := by
        intro i hi
        have hi' : i < out.fcToCc.length := by rw [h.len]; exact hi
        have hx := hF2 _ (List.getElem_mem hi')
        simp [composeMaps, List.getElem?_eq_getElem hi', List.getElem?_eq_getElem hx]
      obtain ⟨g1', g2', g', b1, b2, b3, b4⟩ := C77_two_levels_partial (F := out.fcToCc.map (fun x => F2[x]?.getD 0)) hg h.len
        h.all e2 e3 (by rw [List.length_map, h.len]) hget hz
      rw [h.build] at b1
      injection b1 with b1
      subst b1
      rw [e5] at b2
      injection b2 with b2
      subst b2
      refine ⟨out.fcToCc :: maps, gN, _, g', N2, ?_, by rw [List.length_map, h.len], ?_, ?_, b3, ?_⟩
      · unfold runLevels
        rw [h.call]
        simp only [h.build, e1]
      · intro k
        rw [← e3, List.mem_map]
        constructor
        · rintro ⟨x, hx, rfl⟩
          have := hF2 x hx
          rw [List.getElem?_eq_getElem this, Option.getD_some]
          exact List.getElem_mem this
        · intro hk
          obtain ⟨x, hx⟩ := List.mem_iff_getElem?.1 hk
          have hxN : x < N := by rw [← e2]; exact (List.getElem?_eq_some_iff.1 hx).1
          exact ⟨x, (h.all x).2 hxN, by rw [hx]; rfl⟩
      · intro i hi
        rw [hget i hi]
        have hi' : i < out.fcToCc.length := by rw [h.len]; exact hi
        have hx : out.fcToCc[i] < N := (h.all _).1 (List.getElem_mem hi')
        simp only [composeMaps, List.getElem?_eq_getElem hi', Option.bind_some]
        rw [← e4 _ hx]
        cases F2[out.fcToCc[i]]? <;> rfl
      · exact ⟨e6.adjIdx.trans b4.adjIdx, e6.adj.trans b4.adj, e6.nBnd.trans b4.nBnd,
          fun hW => (e6.volumes hW).trans (b4.volumes hW), fun hW => (e6.priority hW).trans (b4.priority hW)⟩

/-! ## Concrete cases -/

/-- the hypotheses of C77 are met by three cells in a row and two levels -/
example := C77_levels_partial (P := exPlatform) (z := -100) (by decide) (by decide) (above := False) exLevels
  (by simp [exLevels]) exLine3_good (fun h => h.elim) (fun s hs g' o' n' _ _ _ => ⟨(exLevels_ok s hs g' o').1,
    (exLevels_ok s hs g' o').2.1, Or.inl (exLevels_ok s hs g' o').2.2⟩) ⟨[], [], []⟩

/-- four cells in a row, grouped in pairs and then all together -/
example : ∃ g1 g2 g' : MeshData Int, buildCoarseGraph (-100) [0, 0, 1, 2] exRow4 = .ok g1 ∧
    buildCoarseGraph (-100) [1, 0, 0] g1 = .ok g2 ∧ buildCoarseGraph (-100) [1, 1, 0, 0] exRow4 = .ok g' ∧
    SameMesh g2 g' ∧ CommAdd Int ∧ LawfulLt Int := by
  obtain ⟨g1, g2, g', h1, h2, h3, h4⟩ := C77_two_levels_partial exRow4_good (f1 := [0, 0, 1, 2]) (f2 := [1, 0, 0])
    (F := [1, 1, 0, 0]) (N1 := 3) (N2 := 2) rfl (by intro k; simp; omega) rfl (by intro k; simp; omega) rfl
    (by intro i hi
        have : i = 0 ∨ i = 1 ∨ i = 2 ∨ i = 3 := by omega
        rcases this with rfl | rfl | rfl | rfl <;> rfl) (z := -100) (by decide)
  exact ⟨g1, g2, g', h1, h2, h3, h4, exCommAdd, exLawful⟩

/-- **C77 fails** for the centers: three cells in a row, each alone in its coarse cell at both levels. -/
theorem C77_centers_counterexample : ∃ g1 g2 g' : MeshData Int, buildCoarseGraph (-100) [0, 1, 2] exLine3 = .ok g1 ∧
    buildCoarseGraph (-100) [0, 1, 2] g1 = .ok g2 ∧ buildCoarseGraph (-100) [0, 1, 2] exLine3 = .ok g' ∧
    g2.centers = [[0], [40], [180]] ∧ g'.centers = [[0], [20], [60]] := ⟨_, _, _, rfl, rfl, rfl, by decide, by decide⟩

/-- **C77 fails** for the weights of the faces: three cells in a row, numbered backwards twice. -/
theorem C77_weights_counterexample : ∃ g1 g2 g' : MeshData Int, buildCoarseGraph (-100) [2, 1, 0] exLine3 = .ok g1 ∧
    buildCoarseGraph (-100) [2, 1, 0] g1 = .ok g2 ∧ buildCoarseGraph (-100) [0, 1, 2] exLine3 = .ok g' ∧
    g2.weights[0]? = some 7 ∧ g'.weights[0]? = some 5 := ⟨_, _, _, rfl, rfl, rfl, by decide, by decide⟩

end CoMMA
