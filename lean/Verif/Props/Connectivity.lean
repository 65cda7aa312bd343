import Verif.Lemmas.Connectivity
import Verif.Props.Agglomeration
import Verif.Lemmas.ExampleTools
import Verif.Spec.Connectivity
/-! # Connectivity check (C35) and connectivity of a coarse cell (C53) -/

namespace CoMMA

/-- sources of the marks after a history of calls -/
theorem VGraph.calls_marked {n : Nat} {rp ci : List Nat} (hv : ValidCRS n rp ci) (hne : n = 1 ∨ ci ≠ [])
    (l : List GraphCall) (hl : ∀ i, GraphCall.search i ∈ l → i < n) :
    Ok ((VGraph.new n rp ci).calls l) (fun s => ∃ src : Nat → Prop, Marked n rp ci src s.2 ∧
      (∀ x, GraphCall.search x ∈ l → src x) ∧
      ∀ x, src x → GraphCall.search x ∈ l ∨ ci[0]? = some x) := by
  unfold VGraph.calls
  refine Ok.foldlM_prefix (I := fun pre (s : List Bool × VGraph) =>
    ∃ src : Nat → Prop, Marked n rp ci src s.2 ∧
      (∀ x, GraphCall.search x ∈ pre → src x) ∧
      ∀ x, src x → GraphCall.search x ∈ pre ∨ ci[0]? = some x) ?_ ?_
  · exact ⟨fun _ => False, Marked.new, by simp, by simp⟩
  · rintro pre c post s hp ⟨src, hm, h1, h2⟩
    cases c with
    | search i =>
      refine Ok.bind (hm.dfs hv (hl i (by rw [hp]; simp))) ?_
      intro g hg
      refine ⟨_, hg, ?_, ?_⟩
      · intro x hx
        rcases List.mem_append.1 hx with h | h
        · exact .inl (h1 x h)
        · right; simpa using h
      · rintro x (h | rfl)
        · rcases h2 x h with h | h
          · exact .inl (List.mem_append_left _ h)
          · exact .inr h
        · left; simp
    | check =>
      show Ok (s.2.check >>= fun r => pure (s.1 ++ [r.1], r.2)) _
      by_cases hn : n = 1
      · have : s.2.check = .ok (true, { s.2 with visited := s.2.visited ++ List.replicate s.2.nbC false }) := by
          unfold VGraph.check; simp only; rw [if_pos (hm.nbC.trans hn)]; rfl
        rw [this]
        refine ⟨src, hm.append, ?_, ?_⟩
        · intro x hx; exact h1 x (by simpa using hx)
        · intro x hx; simpa using h2 x hx
      · have hci : ci ≠ [] := hne.resolve_left hn
        obtain ⟨c, hc⟩ : ∃ c, ci[0]? = some c := by
          cases ci with
          | nil => exact absurd rfl hci
          | cons c t => exact ⟨c, rfl⟩
        refine Ok.bind (hm.check hv hn hc) ?_
        rintro r ⟨hr, _⟩
        refine ⟨_, hr, ?_, ?_⟩
        · intro x hx; exact .inl (h1 x (by simpa using hx))
        · rintro x (h | rfl)
          · simpa using h2 x h
          · exact .inr hc

/-- **C35** (any history) On a valid graph, directed or not, with a neighbour list that is not
empty, every call terminates; the answer of a check made after any history of searches and
checks is true exactly when every cell can be reached from the first entry of the neighbour list
or from one of the cells searched before. -/
theorem C35_history {n : Nat} {rp ci : List Nat} (hv : ValidCRS n rp ci) (hn : n ≠ 1) {c : Nat}
    (hc : ci[0]? = some c) (l : List GraphCall) (hl : ∀ i, GraphCall.search i ∈ l → i < n) :
    ∃ bs b g, (VGraph.new n rp ci).calls (l ++ [.check]) = .ok (bs ++ [b], g) ∧
      (∃ g', (VGraph.new n rp ci).calls l = .ok (bs, g')) ∧
      (b = true ↔ CoveredFrom n rp ci (fun s => s = c ∨ GraphCall.search s ∈ l)) := by
  have hci : ci ≠ [] := by rintro rfl; simp at hc
  obtain ⟨⟨bs, g'⟩, he, src, hm, h1, h2⟩ := (VGraph.calls_marked hv (.inr hci) l hl).eq
  obtain ⟨⟨b, g⟩, hr, _, hb⟩ := (hm.check hv hn hc).eq
  refine ⟨bs, b, g, ?_, ⟨g', he⟩, ?_⟩
  · have he' := he
    unfold VGraph.calls at he' ⊢
    rw [List.foldlM_append, he']
    simp only [ok_bind, List.foldlM_cons, List.foldlM_nil, VGraph.call]
    simp only at hr
    rw [hr]; rfl
  · rw [hb]
    constructor
    · intro h x hx
      obtain ⟨s, hs, _, k, hw⟩ := h x hx
      refine ⟨k, s, ?_, hw⟩
      rcases hs with hs | hs
      · rcases h2 s hs with h | h
        · exact .inr h
        · left; rw [hc] at h; cases h; rfl
      · exact .inl hs
    · intro h x hx
      obtain ⟨k, s, hs, hw⟩ := h x hx
      rcases hs with rfl | hs
      · exact ⟨s, .inr rfl, hv.range s (List.mem_of_getElem? hc), k, hw⟩
      · exact ⟨s, .inl (h1 s hs), hl s hs, k, hw⟩

/-- **C35** (partial) On an undirected graph with one cell or with some edge, `check_connectivity`
tells whether the graph is connected, at the first call and at any later one, as long as the
user makes no search of their own.  Missing: graphs without edges (`C35_no_edges`) and histories
with searches (`C35_stale_marks`; `C35_history` gives the exact answer). -/
theorem C35_partial {n : Nat} {rp ci : List Nat} (hv : ValidCRS n rp ci) (hs : SymmetricCRS rp ci)
    (hne : n = 1 ∨ ci ≠ []) (k : Nat) :
    ∃ bs b g, (VGraph.new n rp ci).calls (List.replicate (k + 1) .check) = .ok (bs ++ [b], g) ∧
      bs.length = k ∧ (∀ b' ∈ bs ++ [b], b' = true ↔ ConnectedMesh n rp ci) := by
  have hno : ∀ m i, GraphCall.search i ∈ List.replicate m GraphCall.check → i < n := by
    intro m i h; have := List.eq_of_mem_replicate h; cases this
  -- one more check
  have key : ∀ m bs g', (VGraph.new n rp ci).calls (List.replicate m .check) = .ok (bs, g') →
      ∃ b g, (VGraph.new n rp ci).calls (List.replicate (m + 1) .check) = .ok (bs ++ [b], g) ∧
        (b = true ↔ ConnectedMesh n rp ci) := by
    intro m bs g' he
    by_cases hn : n = 1
    · subst hn
      obtain ⟨⟨bs', g''⟩, he', src, hm, _, _⟩ :=
        (VGraph.calls_marked hv hne (List.replicate m .check) (hno m)).eq
      rw [he] at he'; cases he'
      refine ⟨true, { g' with visited := g'.visited ++ List.replicate g'.nbC false }, ?_, ?_⟩
      · rw [List.replicate_succ']
        unfold VGraph.calls at he ⊢
        rw [List.foldlM_append, he]
        simp only [ok_bind, List.foldlM_cons, List.foldlM_nil, VGraph.call, VGraph.check]
        have hg : g'.nbC = 1 := hm.nbC
        rw [if_pos hg]; rfl
      · refine ⟨fun _ i j hi hj => ⟨0, ?_⟩, fun _ => rfl⟩
        rw [show i = 0 by omega, show j = 0 by omega]; exact .nil _
    · obtain ⟨c, hc⟩ : ∃ c, ci[0]? = some c := by
        cases ci with
        | nil => exact absurd rfl (hne.resolve_left hn)
        | cons c t => exact ⟨c, rfl⟩
      have hcn : c < n := hv.range c (List.mem_of_getElem? hc)
      obtain ⟨bs', b, g, h1, ⟨g'', h2⟩, h3⟩ := C35_history hv hn hc (List.replicate m .check) (hno m)
      rw [he] at h2; cases h2
      refine ⟨b, g, by rw [List.replicate_succ']; exact h1, ?_⟩
      rw [h3]
      constructor
      · intro h i j hi hj
        have hto : ∀ x, x < n → ∃ k, Walk (Adj rp ci) k c x := by
          intro x hx
          obtain ⟨k, s, hs', hw⟩ := h x hx
          rcases hs' with rfl | hs'
          · exact ⟨k, hw⟩
          · have := List.eq_of_mem_replicate hs'; cases this
        obtain ⟨a, ha⟩ := hto i hi
        obtain ⟨b', hb⟩ := hto j hj
        exact ⟨_, (ha.symm hs).trans hb⟩
      · intro h x hx
        obtain ⟨k, hw⟩ := h c x hcn hx
        exact ⟨k, c, .inl rfl, hw⟩
  have all : ∀ m, ∃ bs g, (VGraph.new n rp ci).calls (List.replicate m .check) = .ok (bs, g) ∧
      bs.length = m ∧ ∀ b' ∈ bs, b' = true ↔ ConnectedMesh n rp ci := by
    intro m
    induction m with
    | zero => exact ⟨[], _, rfl, rfl, by simp⟩
    | succ m ih =>
      obtain ⟨bs, g, h1, h2, h3⟩ := ih
      obtain ⟨b, g', h4, h5⟩ := key m bs g h1
      refine ⟨bs ++ [b], g', h4, by simp [h2], ?_⟩
      intro b' hb'
      rcases List.mem_append.1 hb' with h | h
      · exact h3 b' h
      · rw [List.mem_singleton.1 h]; exact h5
  obtain ⟨bs, g, h1, h2, h3⟩ := all k
  obtain ⟨b, g', h4, h5⟩ := key k bs g h1
  refine ⟨bs, b, g', h4, h2, ?_⟩
  intro b' hb'
  rcases List.mem_append.1 hb' with h | h
  · exact h3 b' h
  · rw [List.mem_singleton.1 h]; exact h5

/-- the hypotheses are met by two separate edges; both answers are false -/
example : ValidCRS 4 [0, 1, 2, 3, 4] [1, 0, 3, 2] ∧ SymmetricCRS [0, 1, 2, 3, 4] [1, 0, 3, 2] ∧
    ((VGraph.new 4 [0, 1, 2, 3, 4] [1, 0, 3, 2]).calls [.check, .check]).map (·.1) = .ok [false, false] :=
  ⟨checkCRS_sound (by decide), checkSym_sound (n := 4) (checkCRS_sound (by decide)) (by decide), by rfl⟩

/-- ... and by a path with three cells; both answers are true -/
example : ValidCRS 3 [0, 1, 3, 4] [1, 0, 2, 1] ∧ SymmetricCRS [0, 1, 3, 4] [1, 0, 2, 1] ∧
    ((VGraph.new 3 [0, 1, 3, 4] [1, 0, 2, 1]).calls [.check, .check]).map (·.1) = .ok [true, true] :=
  ⟨checkCRS_sound (by decide), checkSym_sound (n := 3) (checkCRS_sound (by decide)) (by decide), by rfl⟩

/-- **C35** is violated: on two cells without edges the first entry of the empty neighbour list
is read. -/
theorem C35_no_edges : ValidCRS 2 [0, 0, 0] [] ∧ SymmetricCRS [0, 0, 0] [] ∧
    (VGraph.new 2 [0, 0, 0] []).calls [.check] = .error .ub :=
  ⟨checkCRS_sound (by decide), checkSym_sound (n := 2) (checkCRS_sound (by decide)) (by decide), by rfl⟩

/-- **C35** is violated: the marks of a search made before are not reset, so that two separate
edges are declared connected. -/
theorem C35_stale_marks : ValidCRS 4 [0, 1, 2, 3, 4] [1, 0, 3, 2] ∧
    SymmetricCRS [0, 1, 2, 3, 4] [1, 0, 3, 2] ∧ ¬ ConnectedMesh 4 [0, 1, 2, 3, 4] [1, 0, 3, 2] ∧
    ((VGraph.new 4 [0, 1, 2, 3, 4] [1, 0, 3, 2]).calls [.search 2, .check]).map (·.1) = .ok [true] := by
  have hv : ValidCRS 4 [0, 1, 2, 3, 4] [1, 0, 3, 2] := checkCRS_sound (by decide)
  refine ⟨hv, checkSym_sound (n := 4) (checkCRS_sound (by decide)) (by decide), ?_, by rfl⟩
  intro h
  obtain ⟨k, hw⟩ := h 0 2 (by decide) (by decide)
  have inv : ∀ {k x y}, Walk (Adj [0, 1, 2, 3, 4] [1, 0, 3, 2]) k x y → x < 2 → y < 2 := by
    intro k x y hw hx
    induction hw with
    | nil => exact hx
    | @step k x y z _ hr ih =>
      have hy := ih hx
      rw [adj_iff_rowOf] at hr
      have : y = 0 ∨ y = 1 := by omega
      rcases this with rfl | rfl <;> simp [rowOf] at hr <;> omega
  exact absurd (inv hw (by decide)) (by decide)

/-! ## The answer of a coarse cell -/

theorem compactness_pos_of_connected {n : Nat} {rp ci : List Nat} (hv : ValidCRS n rp ci) {s : NSet} (hs : ∀ x ∈ s, x < n)
    (hcon : ConnectedSet rp ci (· ∈ s)) {k : Nat} (hk : IsCompactness rp ci s k) (hc : 1 < s.card) : 0 < k := by
  obtain ⟨⟨x, hx, hxk⟩, _⟩ := hk.2 hc
  -- another cell
  obtain ⟨y, hy, hyx⟩ : ∃ y ∈ s, y ≠ x := by
    by_contra hno
    have hall : ∀ y ∈ s.elems, y = x := fun y hy => by
      by_contra hyx; exact hno ⟨y, hy, hyx⟩
    have hcard : s.elems.length = s.card := rfl
    cases he : s.elems with
    | nil => rw [he] at hcard; simp at hcard; omega
    | cons a t =>
      cases ht : t with
      | nil => rw [he, ht] at hcard; simp at hcard; omega
      | cons b u =>
        have hsr := s.sorted
        rw [he, ht] at hsr
        have h1 := hall a (by rw [he]; simp)
        have h2 := hall b (by rw [he, ht]; simp)
        have := (List.pairwise_cons.1 hsr).1 b (by simp)
        omega
  obtain ⟨m, hw⟩ := hcon x y hx hy
  -- first step of the walk
  have first : ∀ {m x y : Nat} {R : Nat → Nat → Prop}, Walk R m x y → y ≠ x → ∃ z, R x z := by
    intro m x y R hw
    induction hw with
    | nil => intro h; exact absurd rfl h
    | @step k x y z hw hr ih =>
      intro _
      by_cases hyx : y = x
      · exact ⟨z, hyx ▸ hr⟩
      · exact ih hyx
  obtain ⟨z, ha, _, hz⟩ := first hw hyx
  rw [← hxk]
  refine List.countP_pos_iff.2 ⟨z, hz, ?_⟩
  rw [List.contains_iff_mem]
  exact adj_iff_rowOf.1 ha

/-- **C53** (partial) At the end of an isotropic call (no repeated neighbour, no self loop) every
coarse cell is connected, and `is_connected` says so if it has two cells or more.  Missing:
coarse cells with one cell (`C53_singleton`) and sets of cells that no call builds
(`C53_disconnected`). -/
theorem C53_partial {W : Type} [Num W] {P : Platform} {a : Args W} {o : Outs} {n : Nat} (hm : ValidMesh a n)
    (hp : ValidParams P a) (hs : CorrectsSingletons a) (hoff : WithoutLines a o)
    (hu : UniqueRows a.rowPtr a.colInd) (hl : NoSelfLoop a.rowPtr a.colInd) :
    ∃ f c k p k', checkAll P a o = .ok c ∧ anisoPhase P a o c = .ok (k, p, o.linesIdx, o.lines) ∧
      isoPhase P a c k p = .ok k' ∧ agglomerateOneLevel P a o = (⟨f, o.linesIdx, o.lines⟩, .ok ()) ∧
      ∀ j ∈ f, ∃ cc, k'.ccs.find? j = some cc ∧ (∀ i : Nat, i ∈ cc.fcs ↔ f[i]? = some j) ∧
        ConnectedSet a.rowPtr a.colInd (fun i => f[i]? = some j) ∧
        (cc.isConnected = true ↔ 1 < f.count j) := by
  obtain ⟨c, k0, p, h, rfl⟩ := start_iso hm hp hoff
  obtain ⟨k1, k2, N, f, ho⟩ := outcome hm hp hs h
  refine ⟨f, c, _, p, k2, h.check, h.eq, ho.phase, ho.eq, ?_⟩
  intro j hj
  obtain ⟨i, hi⟩ := List.mem_iff_getElem?.1 hj
  obtain ⟨cc, hc⟩ := ho.reads.cc hi
  have hsnd := ho.sound h.aniso hc (ho.isoOnly rfl hc)
  have hcomp := hsnd.2 hu hl
  refine ⟨cc, hc, ho.reads.mem hc, ho.reads.connected hc hsnd.1, ?_⟩
  rw [ho.reads.count hc, (ho.reads.card j cc hc).1]
  unfold CC.isConnected
  rw [decide_eq_true_iff]
  constructor
  · intro h0
    by_contra hle
    have := hcomp.1 (by omega)
    omega
  · intro h1
    refine compactness_pos_of_connected hm.crs ?_ hsnd.1 hcomp h1
    intro x hx
    have := (ho.reads.mem hc x).1 hx
    have := (List.getElem?_eq_some_iff.1 this).1
    rw [ho.reads.len] at this; exact this

/-- **C53** is violated: a coarse cell with one cell is said not to be connected. -/
theorem C53_singleton (x : Nat) (iso : Bool) : (CC.new (NSet.single x) 0 iso).isConnected = false ∧
    ∀ rp ci, ConnectedSet rp ci (· ∈ NSet.single x) := by
  refine ⟨rfl, ?_⟩
  intro rp ci a b ha hb
  have h1 : a = x := by simpa using ha
  have h2 : b = x := by simpa using hb
  rw [h1, h2]; exact ⟨0, .nil _⟩

/-- two separate edges -/
def exEdges : Graph Int := ⟨4, [0, 1, 2, 3, 4], [1, 0, 3, 2], [1, 1, 1, 1], [1, 1, 1, 1], [], [], 2, NSet.empty⟩

/-- **C53** is violated: a coarse cell made of two separate edges is said to be connected. -/
theorem C53_disconnected : ∃ k, exEdges.minCompactness (NSet.ofList [0, 1, 2, 3]) = .ok k ∧
    (CC.new (NSet.ofList [0, 1, 2, 3]) k true).isConnected = true ∧
    ¬ ConnectedSet exEdges.rowPtr exEdges.colInd (· ∈ NSet.ofList [0, 1, 2, 3]) := by
  refine ⟨1, by decide +kernel, by decide, ?_⟩
  intro h
  refine C35_stale_marks.2.2.1 ?_
  intro i j hi hj
  have hmem : ∀ x, x < 4 → x ∈ NSet.ofList [0, 1, 2, 3] := by decide
  obtain ⟨k, hw⟩ := h i j (hmem i hi) (hmem j hj)
  exact ⟨k, hw.mono (fun _ _ hr => hr.1)⟩

end CoMMA
