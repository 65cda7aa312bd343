import Verif.Props.CoarseGraph
import Verif.Props.Anisotropic
/-! # C18, C46: several levels -/

set_option linter.unusedSectionVars false

namespace CoMMA

variable {W : Type} [Num W]

theorem Walk.cons {R : Nat → Nat → Prop} {k x y z : Nat} (h : R x y) (hw : Walk R k y z) : Walk R (k + 1) x z := by
  induction hw with
  | nil => exact .step (.nil x) h
  | step _ h2 ih => exact .step (ih h) h2

/-- without isolated cells there are at least as many entries as cells -/
theorem ValidCRS.entries_ge {n : Nat} {rp ci : List Nat} (hv : ValidCRS n rp ci)
    (h : ∀ i, i < n → ∃ j, Adj rp ci i j) : n ≤ ci.length := by
  have key : ∀ i, i ≤ n → ∃ b, rp[i]? = some b ∧ i ≤ b := by
    intro i
    induction i with
    | zero => intro _; obtain ⟨b, hb, _⟩ := hv.getPtr (i := 0) (by omega); exact ⟨b, hb, by omega⟩
    | succ i ih =>
      intro hi
      obtain ⟨b, hb, hib⟩ := ih (by omega)
      obtain ⟨j, b', e, p, hb', he, h1, h2, _⟩ := h i (by omega)
      rw [hb] at hb'; cases hb'
      exact ⟨e, he, by omega⟩
  obtain ⟨b, hb, hnb⟩ := key n (Nat.le_refl n)
  rw [hv.last] at hb; cases hb; exact hnb

theorem ConnectedMesh.hasNeighbour {n : Nat} {rp ci : List Nat} (hc : ConnectedMesh n rp ci) (hn : 1 < n) {i : Nat}
    (hi : i < n) : ∃ j, Adj rp ci i j := by
  obtain ⟨j, hj, hne⟩ : ∃ j, j < n ∧ j ≠ i := by
    by_cases h : i = 0
    · exact ⟨1, hn, by omega⟩
    · exact ⟨0, by omega, by omega⟩
  obtain ⟨k, hw⟩ := hc i j hi hj
  have key : ∀ k x y, Walk (Adj rp ci) k x y → x ≠ y → ∃ j, Adj rp ci x j := by
    intro k x y hw
    induction hw with
    | nil => intro h; exact absurd rfl h
    | @step k x y z hxy hyz ih =>
      intro _
      by_cases h : x = y
      · subst h; exact ⟨z, hyz⟩
      · exact ih h
  exact key k i j hw (Ne.symm hne)

theorem GoodMesh.validData {g : MeshData W} {n : Nat} (h : GoodMesh g n) : ValidData g n where
  pos := h.pos
  crs := h.crs
  volumes := h.volumes
  centers := h.centers
  priority := h.priority
  nBnd := h.nBnd
  coords := h.coords
  cover := by
    intro j hj
    rw [h.weights]
    have hjn := h.crs.range j hj
    by_cases hn : 1 < n
    · exact Nat.lt_of_lt_of_le hjn (h.crs.entries_ge (fun i hi => h.connected.hasNeighbour hn hi))
    · have : j = 0 := by omega
      subst this
      exact List.length_pos_of_mem hj

/-- distinct indices below `N` taken from a list are at most as many as its entries -/
theorem count_le {f2c : List Nat} {N : Nat} (h : ∀ k, k < N → k ∈ f2c) : N ≤ f2c.length := by
  have h1 : (List.range N).Subperm f2c := List.subperm_of_subset List.nodup_range (fun k hk => h k (List.mem_range.1 hk))
  have := h1.length_le
  rwa [List.length_range] at this

/-- **C18** (one level) The coarse graph of a connected valid mesh under a map with contiguous
indices is a connected valid mesh.  Its priorities stay above the smallest positive number if
those of the fine mesh are. -/
theorem C18_coarse_mesh {g : MeshData W} {n : Nat} (hg : GoodMesh g n) {f2c : List Nat} (hf : f2c.length = n)
    {N : Nat} (hN : ∀ k, k ∈ f2c ↔ k < N) {z : Int} (hz : z ≤ 0) :
    ∃ g', buildCoarseGraph z f2c g = .ok g' ∧ GoodMesh g' N ∧ N ≤ n ∧
      (Num.lt (Num.lmin : W) Num.lmin = false → PrioritiesAbove g → PrioritiesAbove g') := by
  have hv := hg.validData
  have hpos : 0 < N := by
    have : 0 < f2c.length := by rw [hf]; exact hg.pos
    have := (hN f2c[0]).1 (List.getElem_mem this)
    omega
  have hcc : CoarseCount f2c N := ⟨fun k hk => (hN k).1 hk, (hN _).2 (by omega)⟩
  obtain ⟨out, D, rows, h1, hD, h2, h3⟩ := hcc.exists_ok hv hf z
  have hadj := h2.adj_iff hv hf hcc.1
  have hcrs := h2.crs hv hf hcc.1
  refine ⟨out, h1, ⟨hpos, hcrs, ?_, Or.inl h2.uniq, ?_, h2.weights_length, by rw [h3]; simp,
    by rw [h2.centers]; simp, by rw [h2.priority]; simp, by rw [h2.nBnd]; simp, ?_, ⟨D, ?_⟩⟩,
    by rw [← hf]; exact count_le (fun k hk => (hN k).2 hk), ?_⟩
  · intro k l hkl
    rw [hadj] at hkl ⊢
    obtain ⟨h4, i, j, hi, hj, hij⟩ := hkl
    exact ⟨Ne.symm h4, j, i, hj, hi, hg.sym i j hij⟩
  · intro k l hk hl
    obtain ⟨i, hi⟩ := List.mem_iff_getElem?.1 ((hN k).2 hk)
    obtain ⟨j, hj⟩ := List.mem_iff_getElem?.1 ((hN l).2 hl)
    have hin : i < n := by rw [← hf]; exact (List.getElem?_eq_some_iff.1 hi).1
    have hjn : j < n := by rw [← hf]; exact (List.getElem?_eq_some_iff.1 hj).1
    obtain ⟨m, hw⟩ := hg.connected i j hin hjn
    have key : ∀ m x y, Walk (Adj g.adjIdx g.adj) m x y → ∀ kx, f2c[x]? = some kx →
        ∃ ky, f2c[y]? = some ky ∧ ∃ m', Walk (Adj out.adjIdx out.adj) m' kx ky := by
      intro m x y hw
      induction hw with
      | nil => intro kx hx; exact ⟨kx, hx, 0, .nil _⟩
      | @step m x y z _ hyz ih =>
        intro kx hx
        obtain ⟨ky, hky, m', hw'⟩ := ih kx hx
        have hz : z < f2c.length := by rw [hf]; exact (hg.crs.adj_lt hyz).2
        refine ⟨f2c[z], List.getElem?_eq_getElem hz, ?_⟩
        by_cases he : ky = f2c[z]
        · exact ⟨m', he ▸ hw'⟩
        · exact ⟨m' + 1, .step hw' ((hadj _ _).2 ⟨he, y, z, hky, List.getElem?_eq_getElem hz, hyz⟩)⟩
    obtain ⟨ky, hky, hw'⟩ := key m i j hw k hi
    rw [hj] at hky; cases hky
    exact hw'
  · intro b hb
    rw [h2.nBnd] at hb
    obtain ⟨k, hk, rfl⟩ := List.mem_map.1 hb
    obtain ⟨i, hi⟩ := List.mem_iff_getElem?.1 ((hN k).2 (List.mem_range.1 hk))
    have hil : i < g.nBnd.length := by rw [hg.nBnd, ← hf]; exact (List.getElem?_eq_some_iff.1 hi).1
    have hmem : ∀ x ∈ entriesAt g.nBnd (cellsOf f2c k), 0 ≤ x := by
      intro x hx
      obtain ⟨j, _, hj⟩ := List.mem_filterMap.1 hx
      exact hg.bndPos x (List.mem_of_getElem? hj)
    have := foldl_maxI (entriesAt g.nBnd (cellsOf f2c k)) z (fun x hx => by have := hmem x hx; omega) (by
      apply List.ne_nil_of_mem (a := g.nBnd[i])
      exact List.mem_filterMap.2 ⟨i, mem_cellsOf.2 hi, List.getElem?_eq_getElem hil⟩)
    exact hmem _ this.1
  · intro c hc
    rw [h2.centers] at hc
    obtain ⟨k, _, rfl⟩ := List.mem_map.1 hc
    simp [moments]
  · intro hirr hp w hw
    rw [h2.priority] at hw
    obtain ⟨k, _, rfl⟩ := List.mem_map.1 hw
    have hmem : ∀ x ∈ entriesAt g.priority (cellsOf f2c k), Num.lt x Num.lmin = false := by
      intro x hx
      obtain ⟨j, _, hj⟩ := List.mem_filterMap.1 hx
      exact hp x (List.mem_of_getElem? hj)
    generalize entriesAt g.priority (cellsOf f2c k) = l at hmem
    have : ∀ z : W, Num.lt z Num.lmin = false → Num.lt (l.foldl maxW z) Num.lmin = false := by
      induction l with
      | nil => intro z hz; exact hz
      | cons a l ih =>
        intro z hz
        rw [List.foldl_cons]
        refine ih (fun x hx => hmem x (List.mem_cons_of_mem _ hx)) _ ?_
        unfold maxW
        split
        · exact hmem a (by simp)
        · exact hz
    exact this _ hirr

/-- A call of `agglomerate_one_level` whose result is known: parameters accepted, correction
off or only for single cells; isotropic, or with lines that do not exceed the limit. -/
structure KnownCall (P : Platform) (a : Args W) (o : Outs) (n : Nat) : Prop where
  params : ValidParams P a
  corr : CorrectsSingletons a
  lines : WithoutLines a o ∨ (BuildsLines a n ∧ ∀ fls, fineLines P a o = .ok fls → FitsLimit a fls) ∨
    ∃ ls, GivesLines a o n ls ∧ FitsLimit a (ls.filter (fun l => decide (1 < l.length)))

theorem GoodMesh.validMesh {g : MeshData W} {n : Nat} (h : GoodMesh g n) (a : Args W) : ValidMesh (a.onMesh g) n where
  pos := h.pos
  crs := h.crs
  sym := h.sym
  uniq := h.uniq
  values := h.weights
  volumes := h.volumes
  centers := h.centers
  prio := h.priority
  bnd := by simp [Args.onMesh, h.nBnd]
  coords := h.coords

theorem KnownCall.partition {P : Platform} {a : Args W} {o : Outs} {n : Nat} (hm : ValidMesh a n) (h : KnownCall P a o n) :
    ∃ out, agglomerateOneLevel P a o = (out, .ok ()) ∧ out.fcToCc.length = n ∧ Contiguous out.fcToCc := by
  rcases h.lines with hoff | ⟨hb, hno⟩ | ⟨ls, hb, hno⟩
  · obtain ⟨f, h1, h2⟩ := C01_total hm h.params h.corr hoff
    have h3 := C02_contiguous hm h.params h.corr hoff
    rw [h1] at h3
    exact ⟨_, h1, h2, h3⟩
  · obtain ⟨fls, h1, _⟩ := fineLines_build (P := P) (o := o) hm hb
    obtain ⟨c, k, p, cls, gss, h2⟩ := built_start hm h.params hb h1 (hno fls h1)
    obtain ⟨out, h6, h7⟩ := h2.result hm h.params h.corr
    exact ⟨out, h6, h7.len, h7.contiguous⟩
  · obtain ⟨out, h6, h7⟩ := C40_given hm h.params h.corr hb hno
    exact ⟨out, h6, h7.len, h7.contiguous⟩

/-- **C18** Any number of levels.  The settings of each level may depend on its mesh and on
the lines exported by the level before; they must be accepted whenever the mesh is connected and
valid, no larger than the finest one, and with priorities above the smallest positive number if those of
the finest mesh are.  Then every level succeeds, the coarsest mesh is connected and valid, and
the composed maps assign every finest cell to one coarsest cell, all coarsest cells being used. -/
theorem C18_levels {P : Platform} {z : Int} (hz : z ≤ 0) (hirr : Num.lt (Num.lmin : W) Num.lmin = false)
    {above : Prop} (levels : List (MeshData W → Outs → Args W)) {n : Nat} {g : MeshData W} (hg : GoodMesh g n)
    (hab : above → PrioritiesAbove g)
    (hl : ∀ s ∈ levels, ∀ g' o' n', GoodMesh g' n' → n' ≤ n → (above → PrioritiesAbove g') →
      KnownCall P ((s g' o').onMesh g') o' n') (o : Outs) :
    ∃ maps gN N, runLevels P z levels g o = .ok (maps, gN) ∧ maps.length = levels.length ∧ GoodMesh gN N ∧ N ≤ n ∧
      (∀ i, i < n → ∃ k, k < N ∧ composeMaps maps i = some k) ∧
      ∀ k, k < N → ∃ i, i < n ∧ composeMaps maps i = some k := by
  induction levels generalizing n g o with
  | nil => exact ⟨[], g, n, rfl, rfl, hg, Nat.le_refl n, fun i hi => ⟨i, hi, rfl⟩, fun k hk => ⟨k, hk, rfl⟩⟩
  | cons s r ih =>
    obtain ⟨out, h1, h2, N, h3⟩ := (hl s (by simp) g o n hg (Nat.le_refl n) hab).partition (hg.validMesh _)
    obtain ⟨g', h4, h5, h6, h7⟩ := C18_coarse_mesh hg h2 h3 hz
    obtain ⟨maps, gN, M, h8, h9, h10, h11, h12, h13⟩ := ih h5 (fun h => h7 hirr (hab h))
      (fun s hs g' o' n' hg' hn' => hl s (List.mem_cons_of_mem _ hs) g' o' n' hg' (by omega)) out
    refine ⟨out.fcToCc :: maps, gN, M, ?_, by simp [h9], h10, by omega, ?_, ?_⟩
    · unfold runLevels
      rw [h1]
      simp only [h4, h8]
    · intro i hi
      have hi' : i < out.fcToCc.length := by omega
      obtain ⟨k, hk, hc⟩ := h12 out.fcToCc[i] ((h3 _).1 (List.getElem_mem hi'))
      exact ⟨k, hk, by simp [composeMaps, List.getElem?_eq_getElem hi', hc]⟩
    · intro k hk
      obtain ⟨j, hj, hc⟩ := h13 k hk
      obtain ⟨i, hi⟩ := List.mem_iff_getElem?.1 ((h3 j).2 hj)
      refine ⟨i, by rw [← h2]; exact (List.getElem?_eq_some_iff.1 hi).1, ?_⟩
      simp [composeMaps, hi, hc]

/-- cells connected to cell 0 through smaller and smaller cells -/
theorem connected_of_smaller {n : Nat} {rp ci : List Nat} (hs : SymmetricCRS rp ci)
    (h : ∀ i, 0 < i → i < n → ∃ j, j < i ∧ Adj rp ci i j) : ConnectedMesh n rp ci := by
  have key : ∀ m i, i ≤ m → i < n → ∃ k, Walk (Adj rp ci) k i 0 := by
    intro m
    induction m with
    | zero => intro i hi _; have : i = 0 := by omega
              subst this; exact ⟨0, .nil 0⟩
    | succ m ih =>
      intro i hi hin
      by_cases h0 : i = 0
      · subst h0; exact ⟨0, .nil 0⟩
      · obtain ⟨j, hj, hij⟩ := h i (by omega) hin
        obtain ⟨k, hw⟩ := ih j (by omega) (by omega)
        exact ⟨k + 1, hw.cons hij⟩
  intro i j hi hj
  obtain ⟨k, hk⟩ := key i i (Nat.le_refl i) hi
  obtain ⟨l, hl⟩ := key j j (Nat.le_refl j) hj
  exact ⟨_, hk.trans (hl.symm hs)⟩

/-- fibres of a map and connected sets of coarse cells -/
theorem connected_preimage {rp ci rp' ci' f2c : List Nat} {S' : Nat → Prop}
    (hfib : ∀ k, ConnectedSet rp ci (fun i => f2c[i]? = some k))
    (hadj : ∀ k l, Adj rp' ci' k l → ∃ i j : Nat, f2c[i]? = some k ∧ f2c[j]? = some l ∧ Adj rp ci i j)
    (hS : ConnectedSet rp' ci' S') : ConnectedSet rp ci (fun i => ∃ k, f2c[i]? = some k ∧ S' k) := by
  have fib : ∀ k, S' k → ∀ x y : Nat, f2c[x]? = some k → f2c[y]? = some k → ∃ m, Walk (fun a b => Adj rp ci a b ∧
      (∃ k, f2c[a]? = some k ∧ S' k) ∧ ∃ k, f2c[b]? = some k ∧ S' k) m x y := by
    intro k hk x y hx hy
    obtain ⟨m, hw⟩ := hfib k x y hx hy
    exact ⟨m, hw.mono (fun a b h => ⟨h.1, ⟨k, h.2.1, hk⟩, ⟨k, h.2.2, hk⟩⟩)⟩
  rintro x y ⟨a, hx, ha⟩ ⟨b, hy, hb⟩
  obtain ⟨m, hw⟩ := hS a b ha hb
  induction hw generalizing y with
  | nil => exact fib _ ha x y hx hy
  | @step m a c d _ hcd ih =>
    obtain ⟨h1, h2, h3⟩ := hcd
    obtain ⟨i, j, hi, hj, hij⟩ := hadj _ _ h1
    obtain ⟨m1, w1⟩ := ih i hx ha hi h2
    obtain ⟨m2, w2⟩ := fib d h3 j y hj hy
    exact ⟨_, (Walk.step w1 ⟨hij, ⟨c, hi, h2⟩, ⟨d, hj, h3⟩⟩).trans w2⟩

theorem IsPath.reverse {rp ci l : List Nat} (hs : SymmetricCRS rp ci) (h : IsPath rp ci l) : IsPath rp ci l.reverse := by
  intro k x y hx hy
  have hkl : k + 1 < l.length := by
    have := (List.getElem?_eq_some_iff.1 hy).1
    rwa [List.length_reverse] at this
  rw [List.getElem?_reverse (by omega)] at hx
  rw [List.getElem?_reverse hkl] at hy
  refine hs _ _ (h (l.length - 1 - (k + 1)) y x hy ?_)
  rw [← hx]; congr 1; omega

theorem forall₂_get {α β : Type} {R : α → β → Prop} {l : List α} {r : List β} (h : List.Forall₂ R l r) {q : Nat} {x : α}
    {y : β} (hx : l[q]? = some x) (hy : r[q]? = some y) : R x y := by
  induction h generalizing q with
  | nil => simp at hx
  | cons h1 _ ih =>
    cases q with
    | zero =>
      simp only [List.getElem?_cons_zero, Option.some.injEq] at hx hy
      subst hx; subst hy; exact h1
    | succ q => exact ih hx hy

/-- consecutive groups of a path are joined by an edge -/
theorem groups_joined {rp ci l : List Nat} (hp : IsPath rp ci l) {groups : List (List Nat)} (hf : groups.flatten <+: l)
    {q : Nat} {A B : List Nat} (hA : groups[q]? = some A) (hB : groups[q + 1]? = some B) (hAn : A ≠ []) (hBn : B ≠ []) :
    ∃ x ∈ A, ∃ y ∈ B, Adj rp ci x y := by
  have hAl : 0 < A.length := List.length_pos_iff.2 hAn
  have hBl : 0 < B.length := List.length_pos_iff.2 hBn
  have e1 := flatten_getElem groups q (A.length - 1) A hA (by omega)
  have e2 := flatten_getElem groups (q + 1) 0 B hB hBl
  have et : groups.take (q + 1) = groups.take q ++ [A] := by rw [List.take_succ, hA]; rfl
  rw [et] at e2
  simp only [List.flatten_append, List.flatten_cons, List.flatten_nil, List.append_nil, List.length_append,
    Nat.add_zero] at e2
  have hx : A[A.length - 1]? = some A[A.length - 1] := List.getElem?_eq_getElem (by omega)
  have hy : B[0]? = some B[0] := List.getElem?_eq_getElem hBl
  rw [hx] at e1; rw [hy] at e2
  obtain ⟨t, rfl⟩ := hf
  have pre : ∀ (p v : Nat), groups.flatten[p]? = some v → (groups.flatten ++ t)[p]? = some v := by
    intro p v hpv
    rw [List.getElem?_append_left (List.getElem?_eq_some_iff.1 hpv).1]; exact hpv
  refine ⟨_, List.mem_of_getElem? hx, _, List.mem_of_getElem? hy, hp _ _ _ (pre _ _ e1) ?_⟩
  have := pre _ _ e2
  rw [← this]; congr 1; omega

theorem pos_lt_nodup {ls : List (List Nat)} (hn : ls.flatten.Nodup) {p q x : Nat} {A B : List Nat} (hA : ls[p]? = some A)
    (hB : ls[q]? = some B) (hx : x ∈ A) (hy : x ∈ B) : p = q := by
  induction ls generalizing p q with
  | nil => simp at hA
  | cons l ls ih =>
    rw [List.flatten_cons, List.nodup_append] at hn
    have sub : ∀ {r : Nat} {C : List Nat}, ls[r]? = some C → x ∈ C → x ∈ ls.flatten := fun hr hC =>
      List.mem_flatten.2 ⟨_, List.mem_of_getElem? hr, hC⟩
    cases p with
    | zero =>
      simp only [List.getElem?_cons_zero, Option.some.injEq] at hA
      subst hA
      cases q with
      | zero => rfl
      | succ q => rw [List.getElem?_cons_succ] at hB; exact absurd rfl (hn.2.2 x hx x (sub hB hy))
    | succ p =>
      rw [List.getElem?_cons_succ] at hA
      cases q with
      | zero =>
        simp only [List.getElem?_cons_zero, Option.some.injEq] at hB
        subst hB
        exact absurd rfl (hn.2.2 x hy x (sub hA hx))
      | succ q => rw [List.getElem?_cons_succ] at hB; rw [ih hn.2.1 hA hB]

/-- **C46** The coarse lines exported by an anisotropic call are lines of the coarse mesh: their
cells are the first coarse cells, in order; consecutive cells are neighbours in the coarse
graph (if the fine lines are paths, which is always so for lines built by the call); if there is at
least one, they are accepted as lines of a call on the coarse mesh. -/
theorem C46_lines_next {P : Platform} {a : Args W} {o : Outs} {n : Nat} {g : MeshData W} (hg : GoodMesh g n)
    (h : KnownCall P (a.onMesh g) o n) (hon : ¬ WithoutLines (a.onMesh g) o)
    (hpath : a.buildLines = false → ∀ ls, Encodes o.linesIdx o.lines ls → ∀ l ∈ ls, IsPath g.adjIdx g.adj l)
    {z : Int} (hz : z ≤ 0) :
    ∃ out g' cls N, agglomerateOneLevel P (a.onMesh g) o = (out, .ok ()) ∧
      buildCoarseGraph z out.fcToCc g = .ok g' ∧ (∀ k, k ∈ out.fcToCc ↔ k < N) ∧ Exports out cls ∧
      out.lines = List.range out.lines.length ∧ (∀ l ∈ cls, IsPath g'.adjIdx g'.adj l) ∧
      ∀ a' : Args W, a'.isAniso = true → a'.buildLines = false → out.lines ≠ [] →
        GivesLines (a'.onMesh g') out N cls := by
  have hm := hg.validMesh a
  obtain ⟨fls, c, k, p, cls, gss, hst, hfp⟩ : ∃ fls c k p cls gss, AnisoStart P (a.onMesh g) o n fls c k p cls gss ∧
      ∀ l ∈ fls, IsPath g.adjIdx g.adj l := by
    rcases h.lines with hoff | ⟨hb, hno⟩ | ⟨ls, hb, hno⟩
    · exact absurd hoff hon
    · obtain ⟨fls, h1, _, _, h4, _⟩ := fineLines_build (P := P) (o := o) hm hb
      obtain ⟨c, k, p, cls, gss, h2⟩ := built_start hm h.params hb h1 (hno fls h1)
      exact ⟨fls, c, k, p, cls, gss, h2, h4⟩
    · obtain ⟨c, k, p, cls, gss, h2⟩ := given_start hm h.params hb hno
      exact ⟨_, c, k, p, cls, gss, h2, fun l hl => hpath hb.build ls hb.enc l (List.mem_filter.1 hl).1⟩
  obtain ⟨k1, k2, N', f, ho⟩ := outcome hm h.params h.corr hst.start
  obtain ⟨N, hN⟩ := ho.reads.contiguous
  obtain ⟨g', h4, h5, h6, h7⟩ := C18_coarse_mesh hg ho.reads.len hN hz
  have hcc : CoarseCount f N := ⟨fun k hk => (hN k).1 hk, (hN _).2 (by have := h5.pos; omega)⟩
  obtain ⟨g'', h4', _, _, _, hadj, _⟩ := C16_adjacency hg.validData ho.reads.len hcc z
  rw [h4] at h4'; cases h4'
  have hflat : cls.flatten = List.range gss.flatten.length := by
    have := hst.done.all
    simp only at this
    rw [this, List.range_eq_range']; rfl
  have hexp : (exportLines cls).2 = cls.flatten := by
    by_cases hc : cls = []
    · subst hc; rfl
    · rw [exportLines_eq hc]
  have hden := (hst.coarsens ho)
  refine ⟨⟨f, (exportLines cls).1, (exportLines cls).2⟩, g', cls, N, ho.eq, h4, hN, exports_exportLines f cls, ?_, ?_, ?_⟩
  · simp only [hexp]
    rw [hflat]; simp
  · have hcut : List.Forall₂ (fun line groups => ∃ l, Oriented (clampBnd (a.onMesh g).dim.toNat (a.onMesh g).nBnd)
        (a.onMesh g).prio line l ∧ Pairing (a.onMesh g).oddLine (lineLimit (a.onMesh g)) l groups) fls gss := by
      have := hst.done.cut
      rw [hst.start.made.prio] at this
      exact this.imp (fun _ _ hc => hc.paired)
    have hl := hst.groups ho
    clear hden
    have hnd : cls.flatten.Nodup := by rw [hflat]; exact List.nodup_range
    intro cl hcl
    obtain ⟨q0, hq0⟩ := List.mem_iff_getElem?.1 hcl
    have hq0l := (List.getElem?_eq_some_iff.1 hq0).1
    have hlen1 := hl.length_eq
    have hlen2 := hcut.length_eq
    have hgq : gss[q0]? = some (gss[q0]'(by omega)) := List.getElem?_eq_getElem _
    have hfq : fls[q0]? = some (fls[q0]'(by omega)) := List.getElem?_eq_getElem _
    have hlq := forall₂_get hl hgq hq0
    obtain ⟨l, hor, hpr⟩ := forall₂_get hcut hfq hgq
    have hpl : IsPath g.adjIdx g.adj l := by
      have hp0 := hfp _ (List.mem_of_getElem? hfq)
      obtain ⟨fr, bk, _, _, ⟨_, rfl⟩ | ⟨_, rfl⟩⟩ := hor
      · exact hp0
      · exact hp0.reverse hg.sym
    intro q u v hu hv
    have hlen3 := hlq.length_eq
    have hul := (List.getElem?_eq_some_iff.1 hu).1
    have hvl := (List.getElem?_eq_some_iff.1 hv).1
    have hA : (gss[q0]'(by omega))[q]? = some ((gss[q0]'(by omega))[q]'(by omega)) := List.getElem?_eq_getElem _
    have hB : (gss[q0]'(by omega))[q + 1]? = some ((gss[q0]'(by omega))[q + 1]'(by omega)) := List.getElem?_eq_getElem _
    have hAd := forall₂_get hlq hA hu
    have hBd := forall₂_get hlq hB hv
    have sz : ∀ grp ∈ gss[q0]'(by omega), grp ≠ [] := by
      intro grp hg0 h0
      subst h0
      rcases hpr.size _ hg0 with h1 | ⟨h1, _⟩ <;> simp at h1
    obtain ⟨x, hx, y, hy, hxy⟩ := groups_joined hpl hpr.front hA hB (sz _ (List.mem_of_getElem? hA))
      (sz _ (List.mem_of_getElem? hB))
    rw [hadj]
    refine ⟨?_, x, y, (hAd x).2 hx, (hBd y).2 hy, hxy⟩
    rintro rfl
    have hcn : cl.Nodup := (List.nodup_flatten.1 hnd).1 cl hcl
    have := (List.getElem?_inj (i := q) (j := q + 1) hul hcn).1 (by rw [hu, hv])
    omega
  · intro a' h8 h9 hne
    simp only [hexp] at hne
    have hcne : cls ≠ [] := by rintro rfl; exact hne rfl
    refine ⟨h8, h9, ?_, hne, ?_, ?_⟩
    · simp only
      rw [exportLines_eq hcne]; exact ⟨rfl, rfl⟩
    · rw [hflat]; exact List.nodup_range
    · intro x hx
      have hl := hst.groups ho
      obtain ⟨cl, hcl, hxcl⟩ := List.mem_flatten.1 hx
      obtain ⟨q0, hq0⟩ := List.mem_iff_getElem?.1 hcl
      obtain ⟨q, hq⟩ := List.mem_iff_getElem?.1 hxcl
      have hq0l := (List.getElem?_eq_some_iff.1 hq0).1
      have hql := (List.getElem?_eq_some_iff.1 hq).1
      have hlen1 := hl.length_eq
      have hcut := hst.done.cut
      have hlen2 := hcut.length_eq
      have hgq : gss[q0]? = some (gss[q0]'(by omega)) := List.getElem?_eq_getElem _
      have hfq : fls[q0]? = some (fls[q0]'(by omega)) := List.getElem?_eq_getElem _
      have hlq := forall₂_get hl hgq hq0
      obtain ⟨l, hor, hpr⟩ := (forall₂_get hcut hfq hgq).paired
      have hlen3 := hlq.length_eq
      have hA : (gss[q0]'(by omega))[q]? = some ((gss[q0]'(by omega))[q]'(by omega)) := List.getElem?_eq_getElem _
      have hAd := forall₂_get hlq hA hq
      have hn0 : (gss[q0]'(by omega))[q]'(by omega) ≠ [] := by
        intro h0
        rcases hpr.size _ (List.mem_of_getElem? hA) with h1 | ⟨h1, _⟩ <;> simp [h0] at h1
      obtain ⟨i, hi⟩ := List.exists_mem_of_ne_nil _ hn0
      exact (hN x).1 (List.mem_of_getElem? ((hAd i).2 hi))

/-! ## Concrete cases -/

theorem exLine3_good : GoodMesh exLine3 3 where
  pos := by decide
  crs := exLine3_valid.crs
  sym := checkSym_sound exLine3_valid.crs (by decide)
  uniq := Or.inl (checkUniq_sound exLine3_valid.crs (by decide))
  connected := connected_of_smaller (checkSym_sound exLine3_valid.crs (by decide)) (by
    intro i h0 h3
    have : i = 1 ∨ i = 2 := by omega
    rcases this with rfl | rfl
    · exact ⟨0, by omega, adj_iff_rowOf.2 (by decide)⟩
    · exact ⟨1, by omega, adj_iff_rowOf.2 (by decide)⟩)
  weights := rfl
  volumes := rfl
  centers := rfl
  priority := rfl
  nBnd := rfl
  bndPos := by decide
  coords := ⟨1, by decide⟩

/-- two isotropic levels with the same settings -/
def exLevels : List (MeshData Int → Outs → Args Int) := [fun _ _ => exArgs3, fun _ _ => exArgs3]

theorem exLevels_ok (s : MeshData Int → Outs → Args Int) (hs : s ∈ exLevels) (g' : MeshData Int) (o' : Outs) :
    ValidParams exPlatform ((s g' o').onMesh g') ∧ CorrectsSingletons ((s g' o').onMesh g') ∧
      WithoutLines ((s g' o').onMesh g') o' := by
  have : s = fun _ _ => exArgs3 := by simpa [exLevels] using hs
  subst this
  have h := exGiven_params
  refine ⟨⟨h.dim, h.minCard, h.goalCard, h.maxCard, h.iter, h.thresh, h.order, h.aspect, ?_⟩,
    fun _ => Or.inl rfl, Or.inl rfl⟩
  rintro (h | h) <;> cases h

/-- the hypotheses of C18 are met -/
example := C18_levels (P := exPlatform) (z := -100) (by decide) (by decide) (above := False) exLevels exLine3_good
  (fun h => h.elim) (fun s hs g' o' n' _ _ _ => ⟨(exLevels_ok s hs g' o').1, (exLevels_ok s hs g' o').2.1,
    Or.inl (exLevels_ok s hs g' o').2.2⟩) ⟨[], [], []⟩
/-- without correction: three cells, then two, then one -/
example : (runLevels exPlatform (-100) [fun _ _ => { exArgs3 with correction := false },
    fun _ _ => { exArgs3 with correction := false }] exLine3 ⟨[], [], []⟩).map Prod.fst = .ok [[0, 0, 1], [0, 0]] := by
  decide +kernel

/-- four cells in a row -/
def exRow4 : MeshData Int :=
  ⟨[0, 1, 3, 5, 6], [1, 0, 2, 1, 3, 2], [1, 1, 1, 1, 1, 1], [1, 1, 1, 1], [[0, 0], [1, 0], [2, 0], [3, 0]], [4, 3, 2, 1], [3, 2, 2, 3]⟩

theorem exRow4_crs : ValidCRS 4 exRow4.adjIdx exRow4.adj := checkCRS_sound (by decide)

theorem exRow4_good : GoodMesh exRow4 4 where
  pos := by decide
  crs := exRow4_crs
  sym := checkSym_sound exRow4_crs (by decide)
  uniq := Or.inl (checkUniq_sound exRow4_crs (by decide))
  connected := connected_of_smaller (checkSym_sound exRow4_crs (by decide)) (by
    intro i h0 h3
    have : i = 1 ∨ i = 2 ∨ i = 3 := by omega
    rcases this with rfl | rfl | rfl
    · exact ⟨0, by omega, adj_iff_rowOf.2 (by decide)⟩
    · exact ⟨1, by omega, adj_iff_rowOf.2 (by decide)⟩
    · exact ⟨2, by omega, adj_iff_rowOf.2 (by decide)⟩)
  weights := rfl
  volumes := rfl
  centers := rfl
  priority := rfl
  nBnd := rfl
  bndPos := by decide
  coords := ⟨2, by decide⟩

/-- the line `0 1 2 3`, provided by the caller -/
def exRow4Outs : Outs := ⟨[], [0, 4], [0, 1, 2, 3]⟩

/-- the hypotheses of C46 are met; the coarse line has two cells -/
example := C46_lines_next (P := exPlatform) (a := exGiven) (o := exRow4Outs) (z := -100) exRow4_good
  ⟨⟨exGiven_params.dim, exGiven_params.minCard, exGiven_params.goalCard, exGiven_params.maxCard, exGiven_params.iter,
    exGiven_params.thresh, exGiven_params.order, exGiven_params.aspect, by rintro (h | h) <;> cases h⟩,
    fun _ => Or.inl rfl, Or.inr (Or.inr ⟨[[0, 1, 2, 3]], ⟨rfl, rfl, ⟨rfl, rfl⟩, by decide, by decide, by decide⟩,
      by intro l _ m h; cases h⟩)⟩ (withLines_iff.2 rfl) (by
    intro _ ls hls l hl
    have : ls = [[0, 1, 2, 3]] := by
      obtain ⟨h1, h2⟩ := hls
      match ls, h1, h2 with
      | [], h1, _ => cases h1
      | [x], _, h2 => simp [exRow4Outs] at h2; rw [← h2]
      | x :: y :: r, h1, _ =>
        have := congrArg List.length h1
        rw [offsets_length] at this
        simp [exRow4Outs] at this
    subst this
    simp only [List.mem_singleton] at hl
    subst hl
    intro k x y hx hy
    have hk : k + 1 < 4 := (List.getElem?_eq_some_iff.1 hy).1
    have : k = 0 ∨ k = 1 ∨ k = 2 := by omega
    rcases this with rfl | rfl | rfl <;> (cases hx; cases hy; exact adj_iff_rowOf.2 (by decide)))
  (by decide)
example : agglomerateOneLevel exPlatform (exGiven.onMesh exRow4) exRow4Outs = (⟨[0, 0, 1, 1], [0, 2], [0, 1]⟩, .ok ()) := by
  decide +kernel

end CoMMA
