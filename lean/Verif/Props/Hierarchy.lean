import Verif.Props.Levels
/-! # C47, C58, C59: hierarchies of meshes -/

set_option linter.unusedSectionVars false

namespace CoMMA

variable {W : Type} [Num W]

theorem nodup_of_full {f : List Nat} {n : Nat} (hl : f.length = n) (h : ∀ k, k < n → k ∈ f) : f.Nodup := by
  have h1 : (List.range n).Subperm f := List.subperm_of_subset List.nodup_range (fun k hk => h k (List.mem_range.1 hk))
  have h2 : (List.range n).Perm f := h1.perm_of_length_le (by rw [List.length_range]; omega)
  exact h2.nodup_iff.1 List.nodup_range

theorem nodup_index {f : List Nat} (h : f.Nodup) {x y k : Nat} (hx : f[x]? = some k) (hy : f[y]? = some k) : x = y := by
  obtain ⟨hxl, hxe⟩ := List.getElem?_eq_some_iff.1 hx
  obtain ⟨hyl, hye⟩ := List.getElem?_eq_some_iff.1 hy
  exact (List.Nodup.getElem_inj_iff h).1 (by rw [hxe, hye])

theorem ConnectedMesh.other {n : Nat} {rp ci : List Nat} (hc : ConnectedMesh n rp ci) (hn : 1 < n) {i : Nat}
    (hi : i < n) : ∃ j, j ≠ i ∧ Adj rp ci i j := by
  obtain ⟨j, hj, hne⟩ : ∃ j, j < n ∧ j ≠ i := by
    by_cases h : i = 0
    · exact ⟨1, hn, by omega⟩
    · exact ⟨0, by omega, by omega⟩
  obtain ⟨k, hw⟩ := hc i j hi hj
  have key : ∀ k x y, Walk (Adj rp ci) k x y → x ≠ y → ∃ j, j ≠ x ∧ Adj rp ci x j := by
    intro k x y hw
    induction hw with
    | nil => intro h; exact absurd rfl h
    | @step k x y z hxy hyz ih =>
      intro hz
      by_cases h : x = y
      · subst h; exact ⟨z, Ne.symm hz, hyz⟩
      · exact ih h
  exact key k i j hw (Ne.symm hne)

theorem IsPath.infix {rp ci l m : List Nat} (h : IsPath rp ci l) (hm : m <:+: l) : IsPath rp ci m := by
  obtain ⟨s, t, rfl⟩ := hm
  intro k x y hx hy
  refine h (s.length + k) x y ?_ ?_
  · rw [List.append_assoc, List.getElem?_append_right (by omega)]
    rw [List.getElem?_append_left (by have := (List.getElem?_eq_some_iff.1 hx).1; omega)]
    rw [← hx]; congr 1; omega
  · rw [List.append_assoc, List.getElem?_append_right (by omega)]
    rw [List.getElem?_append_left (by have := (List.getElem?_eq_some_iff.1 hy).1; omega)]
    rw [← hy]; congr 1; omega

/-- the cells of a path are connected -/
theorem IsPath.connected {rp ci l : List Nat} (hs : SymmetricCRS rp ci) (h : IsPath rp ci l) :
    ConnectedSet rp ci (· ∈ l) := by
  have fwd : ∀ (d p : Nat) (x y : Nat), l[p]? = some x → l[p + d]? = some y →
      ∃ k, Walk (fun a b => Adj rp ci a b ∧ a ∈ l ∧ b ∈ l) k x y := by
    intro d
    induction d with
    | zero => intro p x y hx hy; rw [Nat.add_zero, hx] at hy; cases hy; exact ⟨0, .nil _⟩
    | succ d ih =>
      intro p x y hx hy
      have hlt := (List.getElem?_eq_some_iff.1 hy).1
      have hz : l[p + d]? = some (l[p + d]'(by omega)) := List.getElem?_eq_getElem _
      obtain ⟨k, hw⟩ := ih p x _ hx hz
      exact ⟨k + 1, .step hw ⟨h _ _ _ hz hy, List.mem_of_getElem? hz, List.mem_of_getElem? hy⟩⟩
  have hsym : ∀ k x y, Walk (fun a b => Adj rp ci a b ∧ a ∈ l ∧ b ∈ l) k x y →
      ∃ k', Walk (fun a b => Adj rp ci a b ∧ a ∈ l ∧ b ∈ l) k' y x := by
    intro k x y hw
    induction hw with
    | nil => exact ⟨0, .nil _⟩
    | step _ hyz ih =>
      obtain ⟨k', hw'⟩ := ih
      exact ⟨k' + 1, hw'.cons ⟨hs _ _ hyz.1, hyz.2.2, hyz.2.1⟩⟩
  intro x y hx hy
  obtain ⟨p, hp⟩ := List.mem_iff_getElem?.1 hx
  obtain ⟨q, hq⟩ := List.mem_iff_getElem?.1 hy
  by_cases hpq : p ≤ q
  · exact fwd (q - p) p x y hp (by rw [show p + (q - p) = q by omega]; exact hq)
  · obtain ⟨k, hw⟩ := fwd (p - q) q y x hq (by rw [show q + (p - q) = p by omega]; exact hp)
    exact hsym k y x hw

theorem infix_of_mem_flatten {gs : List (List Nat)} {grp : List Nat} (h : grp ∈ gs) : grp <:+: gs.flatten := by
  obtain ⟨s, t, rfl⟩ := List.append_of_mem h
  rw [List.flatten_append, List.flatten_cons]
  exact ⟨s.flatten, t.flatten, by simp⟩

theorem forall₂_mem_right {α β : Type} {R : α → β → Prop} {l : List α} {r : List β} (h : List.Forall₂ R l r) {y : β}
    (hy : y ∈ r) : ∃ x ∈ l, R x y := by
  induction h with
  | nil => cases hy
  | cons h1 _ ih =>
    rcases List.mem_cons.1 hy with rfl | hy
    · exact ⟨_, by simp, h1⟩
    · obtain ⟨x, hx, hr⟩ := ih hy; exact ⟨x, by simp [hx], hr⟩

theorem forall₂_mem_left {α β : Type} {R : α → β → Prop} {l : List α} {r : List β} (h : List.Forall₂ R l r) {x : α}
    (hx : x ∈ l) : ∃ y ∈ r, R x y := by
  induction h with
  | nil => cases hx
  | cons h1 _ ih =>
    rcases List.mem_cons.1 hx with rfl | hx
    · exact ⟨_, by simp, h1⟩
    · obtain ⟨y, hy, hr⟩ := ih hx; exact ⟨y, by simp [hy], hr⟩

/-- a coarse cell of an exported line: a group of at least two consecutive cells of a line -/
theorem CoarsensLines.group {a : Args W} {fls : List (List Nat)} {out : Outs} (h : CoarsensLines a fls out) {k : Nat}
    (hk : k ∈ out.lines) : ∃ line ∈ fls, ∃ grp, 2 ≤ grp.length ∧ (grp <:+: line ∨ grp <:+: line.reverse) ∧
      ∀ i : Nat, out.fcToCc[i]? = some k ↔ i ∈ grp := by
  obtain ⟨cls, gss, h1, h2, h3⟩ := h
  have hk' : k ∈ cls.flatten := by
    rcases h1 with ⟨_, _, h1⟩ | ⟨_, _, h1⟩
    · rw [h1] at hk; cases hk
    · rw [← h1]; exact hk
  obtain ⟨cl, hcl, hkc⟩ := List.mem_flatten.1 hk'
  obtain ⟨groups, hg, hgc⟩ := forall₂_mem_right h3 hcl
  obtain ⟨line, hl, l, hor, hpa⟩ := forall₂_mem_right h2 hg
  obtain ⟨grp, hgr, hd⟩ := forall₂_mem_right hgc hkc
  refine ⟨line, hl, grp, ?_, ?_, hd⟩
  · rcases hpa.size grp hgr with h4 | ⟨h4, _⟩ <;> omega
  · have : grp <:+: l := (infix_of_mem_flatten hgr).trans hpa.front.isInfix
    obtain ⟨fr, bk, _, _, ⟨_, rfl⟩ | ⟨_, rfl⟩⟩ := hor
    · exact Or.inl this
    · exact Or.inr this

/-- What is known of a call on `n` cells: a partition with `N` coarse cells; each coarse
cell not on an exported line is connected, small ones had nothing left to take; the others are
made of consecutive cells of the lines `fls`, which are disjoint. -/
structure CallResult (a : Args W) (n N : Nat) (f lines : List Nat) (fls : List (List Nat)) : Prop where
  len : f.length = n
  all : ∀ k, k ∈ f ↔ k < N
  connected : ∀ k, k ∉ lines → ConnectedSet a.rowPtr a.colInd (fun i => f[i]? = some k)
  min : a.correction = false → ∀ x y kx ky : Nat, f[x]? = some kx → f[y]? = some ky → kx ∉ lines →
    (f.count kx : Int) < a.minCard → Adj a.rowPtr a.colInd x y → ky ≤ kx
  single : a.correction = true → ∀ x k : Nat, f[x]? = some k → k ∉ lines → f.count k = 1 →
    ∀ y, Adj a.rowPtr a.colInd x y → y = x ∨ ∃ ky, f[y]? = some ky ∧ ky ∈ lines
  group : ∀ k ∈ lines, ∃ line ∈ fls, ∃ grp, 2 ≤ grp.length ∧ (grp <:+: line ∨ grp <:+: line.reverse) ∧
    ∀ i : Nat, f[i]? = some k ↔ i ∈ grp
  nodup : fls.flatten.Nodup

theorem AnisoResult.call {a : Args W} {n : Nat} {fls : List (List Nat)} {out : Outs} (h : AnisoResult a n fls out)
    (hn : fls.flatten.Nodup) : ∃ N, CallResult a n N out.fcToCc out.lines fls := by
  obtain ⟨N, hN⟩ := h.contiguous
  exact ⟨N, h.len, hN, h.connected, h.min, h.single, fun k hk => h.lines.group hk, hn⟩

/-- paths of the mesh, if provided by the caller -/
def PathsGiven (a : Args W) (o : Outs) : Prop :=
  a.isAniso = true → a.buildLines = false → ∀ ls, Encodes o.linesIdx o.lines ls → ∀ l ∈ ls, IsPath a.rowPtr a.colInd l

theorem KnownCall.call {P : Platform} {a : Args W} {o : Outs} {n : Nat} (hm : ValidMesh a n) (h : KnownCall P a o n) :
    ∃ out N lines fls, agglomerateOneLevel P a o = (out, .ok ()) ∧ CallResult a n N out.fcToCc lines fls ∧
      (PathsGiven a o → ∀ l ∈ fls, IsPath a.rowPtr a.colInd l) := by
  rcases h.lines with hoff | ⟨hb, hno⟩ | ⟨ls, hb, hno⟩
  · obtain ⟨f, h1, h2⟩ := C01_total hm h.params h.corr hoff
    obtain ⟨N, h3⟩ := C02_contiguous hm h.params h.corr hoff
    have h4 := C05_connected hm h.params h.corr hoff
    have h5 := fun hc => @C04_min_card W _ P a o n hm h.params hc hoff
    have h6 := fun hc => @C09_no_singletons W _ P a o n hm h.params hc h.corr hoff
    rw [h1] at h3 h4
    simp only [h1] at h5 h6
    refine ⟨_, N, [], [], h1, ⟨h2, h3, fun k _ => h4 k, ?_, ?_, (fun k hk => by cases hk), by simp⟩,
      (fun _ l hl => by cases hl)⟩
    · intro hc x y kx ky hx hy _ hs hadj
      exact h5 hc hx hy hs hadj
    · intro hc x k hx _ h1' y hadj
      exact Or.inl (h6 hc hx h1' y hadj)
  · obtain ⟨fls, h1, hnd, _, h4, _⟩ := fineLines_build (P := P) (o := o) hm hb
    obtain ⟨c, k, p, cls, gss, h2⟩ := built_start hm h.params hb h1 (hno fls h1)
    obtain ⟨out, h6, h7⟩ := h2.result hm h.params h.corr
    obtain ⟨N, h8⟩ := h7.call hnd
    exact ⟨out, N, out.lines, fls, h6, h8, fun _ => h4⟩
  · obtain ⟨out, h6, h7⟩ := C40_given hm h.params h.corr hb hno
    obtain ⟨N, h8⟩ := h7.call ((sublist_flatten_filter ls).nodup hb.disjoint)
    exact ⟨out, N, out.lines, _, h6, h8, fun hp l hl => hp hb.on hb.build ls hb.enc l (List.mem_filter.1 hl).1⟩

theorem CallResult.le {a : Args W} {n N : Nat} {f lines : List Nat} {fls : List (List Nat)}
    (h : CallResult a n N f lines fls) : N ≤ n := by
  rw [← h.len]; exact count_le (fun k hk => (h.all k).2 hk)

/-- fewer coarse cells than cells -/
theorem CallResult.lt {a : Args W} {n N : Nat} {f lines : List Nat} {fls : List (List Nat)}
    (h : CallResult a n N f lines fls) (hmin : 1 < a.minCard) (hc : ConnectedMesh n a.rowPtr a.colInd) (hn : 1 < n)
    (hv : ValidCRS n a.rowPtr a.colInd) : N < n := by
  by_contra hcon
  have hN : N = n := by have := h.le; omega
  subst hN
  have hnd := nodup_of_full h.len (fun k hk => (h.all k).2 hk)
  have hone : ∀ k ∈ f, f.count k = 1 := fun k hk => List.count_eq_one_of_mem hnd hk
  have hnl : lines = [] := by
    rw [List.eq_nil_iff_forall_not_mem]
    intro k hk
    obtain ⟨line, hl, grp, h2, hin, hd⟩ := h.group k hk
    have hln : line.Nodup := by
      obtain ⟨s, t, e⟩ := List.append_of_mem hl
      have := h.nodup
      rw [e, List.flatten_append, List.flatten_cons] at this
      exact (List.nodup_append.1 (List.nodup_append.1 this).2.1).1
    have hgn : grp.Nodup := by
      rcases hin with hin | hin
      · exact hin.sublist.nodup hln
      · exact hin.sublist.nodup (List.nodup_reverse.2 hln)
    have e0 := nodup_index hnd ((hd grp[0]).2 (List.getElem_mem _)) ((hd grp[1]).2 (List.getElem_mem _))
    have := (List.Nodup.getElem_inj_iff hgn).1 e0
    omega
  obtain ⟨x, hx⟩ := List.mem_iff_getElem?.1 ((h.all 0).2 (by omega))
  have hxn : x < N := by rw [← h.len]; exact (List.getElem?_eq_some_iff.1 hx).1
  obtain ⟨y, hyx, hadj⟩ := hc.other hn hxn
  have hyn : y < f.length := by rw [h.len]; exact (hv.adj_lt hadj).2
  have hy : f[y]? = some f[y] := List.getElem?_eq_getElem hyn
  cases hcor : a.correction with
  | false =>
    have := h.min hcor x y 0 f[y] hx hy (by rw [hnl]; simp) (by
      rw [hone 0 (List.mem_of_getElem? hx)]; omega) hadj
    have h0 : f[y] = 0 := by omega
    rw [h0] at hy
    exact hyx (nodup_index hnd hy hx)
  | true =>
    rcases h.single hcor x 0 hx (by rw [hnl]; simp) (hone 0 (List.mem_of_getElem? hx)) y hadj with e | ⟨ky, _, e⟩
    · exact hyx e
    · rw [hnl] at e; cases e

theorem CallResult.connectedAll {a : Args W} {n N : Nat} {f lines : List Nat} {fls : List (List Nat)}
    (h : CallResult a n N f lines fls) (hs : SymmetricCRS a.rowPtr a.colInd)
    (hp : ∀ l ∈ fls, IsPath a.rowPtr a.colInd l) (k : Nat) :
    ConnectedSet a.rowPtr a.colInd (fun i => f[i]? = some k) := by
  by_cases hk : k ∈ lines
  · obtain ⟨line, hl, grp, _, hin, hd⟩ := h.group k hk
    have hgp : IsPath a.rowPtr a.colInd grp := by
      rcases hin with hin | hin
      · exact (hp line hl).infix hin
      · exact ((hp line hl).reverse hs).infix hin
    have := hgp.connected hs
    have e : (fun i => f[i]? = some k) = (· ∈ grp) := by funext i; exact propext (hd i)
    rw [e]; exact this
  · exact h.connected k hk

/-- One level of a hierarchy: the call, the coarse mesh and what is known of both. -/
structure LevelMade (P : Platform) (z : Int) (a : Args W) (g : MeshData W) (o : Outs) (n : Nat) (out : Outs)
    (g' : MeshData W) (N : Nat) : Prop where
  call : agglomerateOneLevel P (a.onMesh g) o = (out, .ok ())
  build : buildCoarseGraph z out.fcToCc g = .ok g'
  good : GoodMesh g' N
  len : out.fcToCc.length = n
  all : ∀ k, k ∈ out.fcToCc ↔ k < N
  le : N ≤ n
  lt : 1 < n → N < n
  above : Num.lt (Num.lmin : W) Num.lmin = false → PrioritiesAbove g → PrioritiesAbove g'
  adj : ∀ k l, Adj g'.adjIdx g'.adj k l → ∃ i j : Nat, out.fcToCc[i]? = some k ∧ out.fcToCc[j]? = some l ∧ Adj g.adjIdx g.adj i j
  connected : PathsGiven (a.onMesh g) o → ∀ k, ConnectedSet g.adjIdx g.adj (fun i => out.fcToCc[i]? = some k)

theorem level_made {P : Platform} {z : Int} (hz : z ≤ 0) {a : Args W} {g : MeshData W} {o : Outs} {n : Nat}
    (hg : GoodMesh g n) (h : KnownCall P (a.onMesh g) o n) : ∃ out g' N, LevelMade P z a g o n out g' N := by
  have hm := hg.validMesh a
  obtain ⟨out, N, lines, fls, h1, h2, h3⟩ := h.call hm
  obtain ⟨g', h4, h5, h6, h7⟩ := C18_coarse_mesh hg h2.len h2.all hz
  have hcc : CoarseCount out.fcToCc N := ⟨fun k hk => (h2.all k).1 hk, (h2.all _).2 (by have := h5.pos; omega)⟩
  obtain ⟨g'', h4', _, _, _, hadj, _⟩ := C16_adjacency hg.validData h2.len hcc z
  rw [h4] at h4'; cases h4'
  exact ⟨out, g', N, h1, h4, h5, h2.len, h2.all, h6, fun hn => h2.lt h.params.minCard hg.connected hn hg.crs, h7,
    fun k l hkl => ((hadj k l).1 hkl).2, fun hp k => h2.connectedAll hm.sym (h3 hp) k⟩

theorem LevelMade.compose {P : Platform} {z : Int} {a : Args W} {g : MeshData W} {o : Outs} {n : Nat} {out : Outs}
    {g' : MeshData W} {N : Nat} (h : LevelMade P z a g o n out g' N) (hp : PathsGiven (a.onMesh g) o)
    {maps : List (List Nat)}
    (h9 : ∀ k, ConnectedSet g'.adjIdx g'.adj (fun i => i < N ∧ composeMaps maps i = some k)) (k : Nat) :
    ConnectedSet g.adjIdx g.adj (fun i => i < n ∧ composeMaps (out.fcToCc :: maps) i = some k) := by
  have := connected_preimage (S' := fun j => j < N ∧ composeMaps maps j = some k) (h.connected hp) h.adj (h9 k)
  have e : (fun i => ∃ j, out.fcToCc[i]? = some j ∧ j < N ∧ composeMaps maps j = some k) =
      (fun i => i < n ∧ composeMaps (out.fcToCc :: maps) i = some k) := by
    funext i
    apply propext
    simp only [composeMaps, Option.bind_eq_some_iff]
    constructor
    · rintro ⟨j, hj, _, hc⟩
      exact ⟨by rw [← h.len]; exact (List.getElem?_eq_some_iff.1 hj).1, j, hj, hc⟩
    · rintro ⟨_, j, hj, hc⟩
      exact ⟨j, hj, (h.all j).1 (List.mem_of_getElem? hj), hc⟩
  rw [e] at this
  exact this

/-- **C58** (one level) On a connected mesh with at least two cells every call gives fewer
coarse cells than cells, with or without lines, with or without correction of single cells. -/
theorem C58_shrinks {P : Platform} {a : Args W} {o : Outs} {n : Nat} (hm : ValidMesh a n)
    (hc : ConnectedMesh n a.rowPtr a.colInd) (h : KnownCall P a o n) (hn : 1 < n) :
    ∃ out N, agglomerateOneLevel P a o = (out, .ok ()) ∧ (∀ k, k ∈ out.fcToCc ↔ k < N) ∧ N < n := by
  obtain ⟨out, N, lines, fls, h1, h2, _⟩ := h.call hm
  exact ⟨out, N, h1, h2.all, h2.lt h.params.minCard hc hn hm.crs⟩

theorem length_le_counts {f : List Nat} {N m : Nat} (hN : ∀ k ∈ f, k < N) (hm : ∀ k, f.count k ≤ m) :
    f.length ≤ N * m := by
  induction N generalizing f with
  | zero =>
    have : f = [] := List.eq_nil_iff_forall_not_mem.2 (fun k hk => absurd (hN k hk) (by omega))
    subst this; simp
  | succ N ih =>
    have h1 := ih (f := f.filter (fun k => !(k == N))) (by
      intro k hk
      rw [List.mem_filter] at hk
      have := hN k hk.1
      have h2 : k ≠ N := by simpa using hk.2
      omega) (by
      intro k
      exact Nat.le_trans (List.Sublist.count_le k List.filter_sublist) (hm k))
    have h2 : f.length = f.count N + (f.filter (fun k => !(k == N))).length := by
      rw [List.length_eq_length_filter_add (fun k => k == N)]
      congr 1
      rw [List.count_eq_length_filter]
    have h3 := hm N
    rw [h2, Nat.add_mul]
    omega

/-- **C58** (one level) Without correction an isotropic call gives no fewer coarse cells than
the number of cells over `max_card`. -/
theorem C58_ratio {P : Platform} {a : Args W} {o : Outs} {n : Nat} (hm : ValidMesh a n) (hp : ValidParams P a)
    (hcor : a.correction = false) (hoff : WithoutLines a o) :
    ∃ f N, agglomerateOneLevel P a o = (⟨f, o.linesIdx, o.lines⟩, .ok ()) ∧ (∀ k, k ∈ f ↔ k < N) ∧
      (n : Int) ≤ N * a.maxCard := by
  have hs : CorrectsSingletons a := by intro h; rw [hcor] at h; cases h
  obtain ⟨f, h1, h2⟩ := C01_total hm hp hs hoff
  obtain ⟨N, h3⟩ := C02_contiguous hm hp hs hoff
  have h4 := C03_max_card hm hp hcor hoff
  rw [h1] at h3 h4
  simp only at h3 h4
  refine ⟨f, N, h1, h3, ?_⟩
  have e1 := hp.minCard
  have e2 := hp.goalCard
  have e3 := hp.maxCard
  have := length_le_counts (f := f) (N := N) (m := a.maxCard.toNat) (fun k hk => (h3 k).1 hk) (fun k => by
    have := h4 k; omega)
  rw [h2] at this
  have e4 : ((N * a.maxCard.toNat : Nat) : Int) = N * a.maxCard := by
    rw [Int.natCast_mul, Int.toNat_of_nonneg (by omega)]
  rw [← e4]
  exact_mod_cast this

/-- **C58** A hierarchy ends with one cell: with as many levels as cells (less one) or more the
coarsest mesh has exactly one cell; before, each level has fewer cells than the one before. -/
theorem C58_ends {P : Platform} {z : Int} (hz : z ≤ 0) (hirr : Num.lt (Num.lmin : W) Num.lmin = false)
    {above : Prop} (levels : List (MeshData W → Outs → Args W)) {n : Nat} {g : MeshData W} (hg : GoodMesh g n)
    (hab : above → PrioritiesAbove g)
    (hl : ∀ s ∈ levels, ∀ g' o' n', GoodMesh g' n' → n' ≤ n → (above → PrioritiesAbove g') →
      KnownCall P ((s g' o').onMesh g') o' n') (o : Outs) :
    ∃ maps gN N, runLevels P z levels g o = .ok (maps, gN) ∧ GoodMesh gN N ∧ (N = 1 ∨ N + levels.length ≤ n) := by
  induction levels generalizing n g o with
  | nil => exact ⟨[], g, n, rfl, hg, Or.inr (Nat.le_refl n)⟩
  | cons s r ih =>
    obtain ⟨out, g', N, h⟩ := level_made hz hg (hl s (by simp) g o n hg (Nat.le_refl n) hab)
    have hle := h.le
    obtain ⟨maps, gN, M, h8, h9, h10⟩ := ih h.good (fun hh => h.above hirr (hab hh))
      (fun s hs g' o' n' hg' hn' => hl s (List.mem_cons_of_mem _ hs) g' o' n' hg' (by omega)) out
    refine ⟨out.fcToCc :: maps, gN, M, ?_, h9, ?_⟩
    · unfold runLevels
      rw [h.call]
      simp only [h.build, h8]
    · rw [List.length_cons]
      by_cases hn : 1 < n
      · have := h.lt hn
        omega
      · have := h9.pos
        rcases h10 with h10 | h10
        · exact Or.inl h10
        · left; omega

/-- **C47** However many levels, isotropic or with lines (built by the calls, or provided as
paths), the finest cells of every coarsest cell form a connected part of the finest mesh. -/
theorem C47_connected {P : Platform} {z : Int} (hz : z ≤ 0) (hirr : Num.lt (Num.lmin : W) Num.lmin = false)
    {above : Prop} (levels : List (MeshData W → Outs → Args W)) {n : Nat} {g : MeshData W} (hg : GoodMesh g n)
    (hab : above → PrioritiesAbove g)
    (hl : ∀ s ∈ levels, ∀ g' o' n', GoodMesh g' n' → n' ≤ n → (above → PrioritiesAbove g') →
      KnownCall P ((s g' o').onMesh g') o' n' ∧ PathsGiven ((s g' o').onMesh g') o') (o : Outs) :
    ∃ maps gN, runLevels P z levels g o = .ok (maps, gN) ∧
      ∀ k, ConnectedSet g.adjIdx g.adj (fun i => i < n ∧ composeMaps maps i = some k) := by
  induction levels generalizing n g o with
  | nil =>
    refine ⟨[], g, rfl, ?_⟩
    rintro k x y ⟨_, hx⟩ ⟨_, hy⟩
    simp only [composeMaps, Option.some.injEq] at hx hy
    subst hx; subst hy
    exact ⟨0, .nil _⟩
  | cons s r ih =>
    obtain ⟨hk, hp⟩ := hl s (by simp) g o n hg (Nat.le_refl n) hab
    obtain ⟨out, g', N, h⟩ := level_made hz hg hk
    have hle := h.le
    obtain ⟨maps, gN, h8, h9⟩ := ih h.good (fun hh => h.above hirr (hab hh))
      (fun s hs g' o' n' hg' hn' => hl s (List.mem_cons_of_mem _ hs) g' o' n' hg' (by omega)) out
    refine ⟨out.fcToCc :: maps, gN, ?_, fun k => h.compose hp h9 k⟩
    unfold runLevels
    rw [h.call]
    simp only [h.build, h8]

/-- settings of a level on which lines are built, or those at hand are used -/
structure FollowsLines (P : Platform) (a : Args W) (o : Outs) (n : Nat) (ls : List (List Nat)) : Prop where
  params : ValidParams P a
  corr : CorrectsSingletons a
  on : a.isAniso = true
  build : a.buildLines = true → BuildsLines a n ∧ ∀ fls, fineLines P a o = .ok fls → FitsLimit a fls
  given : a.buildLines = false → FitsLimit a (ls.filter (fun l => decide (1 < l.length)))

theorem encodes_unique {idx data : List Nat} {ls ls' : List (List Nat)} (h : Encodes idx data ls)
    (h' : Encodes idx data ls') : ls = ls' := by
  have key : ∀ (ls ls' : List (List Nat)) (k : Nat), offsets k ls = offsets k ls' → ls.flatten = ls'.flatten → ls = ls' := by
    intro ls
    induction ls with
    | nil =>
      intro ls' k h1 _
      cases ls' with
      | nil => rfl
      | cons l r => have := congrArg List.length h1; rw [offsets_length, offsets_length] at this; simp at this
    | cons l r ih =>
      intro ls' k h1 h2
      cases ls' with
      | nil => have := congrArg List.length h1; rw [offsets_length, offsets_length] at this; simp at this
      | cons l' r' =>
        simp only [offsets, List.cons.injEq, true_and] at h1
        have hl : l.length = l'.length := by
          cases r <;> cases r' <;> simp only [offsets, List.cons.injEq] at h1 <;> omega
        rw [List.flatten_cons, List.flatten_cons] at h2
        obtain ⟨e1, e2⟩ := List.append_inj h2 hl
        rw [e1, ih r' (k + l'.length) (by rw [← hl]; rw [← hl] at h1; exact h1) e2]
  exact key ls ls' 0 (by rw [← h.1, h'.1]) (by rw [← h.2, h'.2])

/-- one level: the lines exported are lines of the coarse mesh -/
theorem lines_level {P : Platform} {z : Int} (hz : z ≤ 0) {a : Args W} {g : MeshData W} {o : Outs} {n : Nat}
    {ls : List (List Nat)} (hg : GoodMesh g n) (hls : LinesOn g n o ls) (h : FollowsLines P (a.onMesh g) o n ls) :
    ∃ out g' N ls', LevelMade P z a g o n out g' N ∧ PathsGiven (a.onMesh g) o ∧ LinesOn g' N out ls' := by
  have hpg : PathsGiven (a.onMesh g) o := by
    intro _ _ ls' hls' l hl
    rcases hls.enc with he | ⟨e1, _, _⟩
    · rw [encodes_unique hls' he] at hl; exact hls.paths l hl
    · have := hls'.1
      rw [e1] at this
      cases ls' <;> simp [offsets] at this
  have use : ∀ (hk : KnownCall P (a.onMesh g) o n), ¬ WithoutLines (a.onMesh g) o →
      ∃ out g' N ls', LevelMade P z a g o n out g' N ∧ PathsGiven (a.onMesh g) o ∧ LinesOn g' N out ls' := by
    intro hk hon
    obtain ⟨out, g', N, hl⟩ := level_made hz hg hk
    obtain ⟨out', g'', cls, N', h1, h2, h3, h4, _, h6, h7⟩ := C46_lines_next hg hk hon (hpg h.on) hz
    rw [hl.call] at h1; cases h1
    rw [hl.build] at h2; cases h2
    have hN : N' = N := by
      have key : ∀ k, k < N' ↔ k < N := fun k => (h3 k).symm.trans (hl.all k)
      have a1 := (key N').not
      have a2 := (key N).not
      omega
    subst hN
    refine ⟨out, g', N', cls, hl, hpg, ?_⟩
    have henc : Encodes out.linesIdx out.lines cls ∨ (out.linesIdx = [] ∧ out.lines = [] ∧ cls = []) := by
      rcases h4 with ⟨e1, e2, e3⟩ | ⟨_, he⟩
      · exact Or.inr ⟨e2, e3, e1⟩
      · exact Or.inl he
    by_cases hemp : out.lines = []
    · have hfl : cls.flatten = [] := by
        rcases henc with he | ⟨_, _, he⟩
        · rw [← he.2]; exact hemp
        · rw [he]; rfl
      exact ⟨henc, by rw [hfl]; simp, by rw [hfl]; simp, h6⟩
    · have := h7 { a with isAniso := true, buildLines := false } rfl rfl hemp
      exact ⟨henc, this.disjoint, this.range, h6⟩
  cases hb : (a.onMesh g).buildLines with
  | true =>
    obtain ⟨h1, h2⟩ := h.build hb
    refine use ⟨h.params, h.corr, Or.inr (Or.inl ⟨h1, h2⟩)⟩ (withLines_iff.2 ?_)
    unfold anisoOn
    rw [h.on, hb]; rfl
  | false =>
    by_cases hemp : ls.flatten = []
    · have hlines : o.lines = [] := by
        rcases hls.enc with he | ⟨_, e, _⟩
        · rw [he.2]; exact hemp
        · exact e
      have hoff : WithoutLines (a.onMesh g) o := Or.inr ⟨hb, Or.inr hlines⟩
      obtain ⟨out, g', N, hl⟩ := level_made hz hg ⟨h.params, h.corr, Or.inl hoff⟩
      obtain ⟨f, h1, _⟩ := C01_total (hg.validMesh a) h.params h.corr hoff
      rw [hl.call] at h1
      refine ⟨out, g', N, ls, hl, hpg, ?_, by rw [hemp]; simp, by rw [hemp]; simp, ?_⟩
      · cases h1; exact hls.enc
      · intro l hl k x y hx
        have : l = [] := List.flatten_eq_nil_iff.1 hemp l hl
        rw [this] at hx; simp at hx
    · have henc : Encodes o.linesIdx o.lines ls := by
        rcases hls.enc with he | ⟨_, _, e⟩
        · exact he
        · rw [e] at hemp; exact absurd rfl hemp
      have hgl : GivesLines (a.onMesh g) o n ls := ⟨h.on, hb, henc, hemp, hls.disjoint, hls.range⟩
      refine use ⟨h.params, h.corr, Or.inr (Or.inr ⟨ls, hgl, h.given hb⟩)⟩ (withLines_iff.2 ?_)
      unfold anisoOn
      rw [h.on, hb, henc.1, henc.2, offsets_length]
      have hne : ls ≠ [] := by rintro rfl; exact hemp rfl
      have := List.length_pos_iff.2 hne
      have h2 : ls.flatten.isEmpty = false := by simpa using hemp
      rw [h2]
      simp; omega

/-- **C59** Lines can be followed through any number of levels: the vectors exported by each
call are given to the next one, with the coarse mesh.  Every call returns normally; at
every level the vectors hold disjoint paths of the mesh of that level, and the finest cells of
every cell of the coarsest mesh are connected. -/
theorem C59_lines_followed {P : Platform} {z : Int} (hz : z ≤ 0) (hirr : Num.lt (Num.lmin : W) Num.lmin = false)
    {above : Prop} (levels : List (MeshData W → Outs → Args W)) {n : Nat} {g : MeshData W} (hg : GoodMesh g n)
    (hab : above → PrioritiesAbove g) {o : Outs} {ls : List (List Nat)} (hls : LinesOn g n o ls)
    (hl : ∀ s ∈ levels, ∀ g' o' n' ls', GoodMesh g' n' → n' ≤ n → (above → PrioritiesAbove g') → LinesOn g' n' o' ls' →
      FollowsLines P ((s g' o').onMesh g') o' n' ls') :
    EveryLevel P z (fun g' o' => ∃ n' ls', GoodMesh g' n' ∧ n' ≤ n ∧ LinesOn g' n' o' ls') levels g o ∧
    ∃ maps gN, runLevels P z levels g o = .ok (maps, gN) ∧
      ∀ k, ConnectedSet g.adjIdx g.adj (fun i => i < n ∧ composeMaps maps i = some k) := by
  have gen : ∀ (levels : List (MeshData W → Outs → Args W)) (m : Nat) (g : MeshData W) (o : Outs) (ls : List (List Nat)),
      GoodMesh g m → m ≤ n → (above → PrioritiesAbove g) → LinesOn g m o ls →
      (∀ s ∈ levels, ∀ g' o' n' ls', GoodMesh g' n' → n' ≤ n → (above → PrioritiesAbove g') → LinesOn g' n' o' ls' →
        FollowsLines P ((s g' o').onMesh g') o' n' ls') →
      EveryLevel P z (fun g' o' => ∃ n' ls', GoodMesh g' n' ∧ n' ≤ n ∧ LinesOn g' n' o' ls') levels g o ∧
      ∃ maps gN, runLevels P z levels g o = .ok (maps, gN) ∧
        ∀ k, ConnectedSet g.adjIdx g.adj (fun i => i < m ∧ composeMaps maps i = some k) := by
    intro levels
    induction levels with
    | nil =>
      intro m g o ls hg hm _ hls _
      refine ⟨⟨m, ls, hg, hm, hls⟩, [], g, rfl, ?_⟩
      rintro k x y ⟨_, hx⟩ ⟨_, hy⟩
      simp only [composeMaps, Option.some.injEq] at hx hy
      subst hx; subst hy
      exact ⟨0, .nil _⟩
    | cons s r ih =>
      intro m g o ls hg hm hab hls hl
      obtain ⟨out, g', N, ls', h1, h2, h3⟩ := lines_level hz hg hls (hl s (by simp) g o m ls hg hm hab hls)
      have hle := h1.le
      obtain ⟨h4, maps, gN, h5, h6⟩ := ih N g' out ls' h1.good (by omega) (fun hh => h1.above hirr (hab hh)) h3
        (fun s hs => hl s (List.mem_cons_of_mem _ hs))
      refine ⟨⟨⟨m, ls, hg, hm, hls⟩, out, g', h1.call, h1.build, h4⟩, out.fcToCc :: maps, gN, ?_, fun k => h1.compose h2 h6 k⟩
      unfold runLevels
      rw [h1.call]
      simp only [h1.build, h5]
  exact gen levels n g o ls hg (Nat.le_refl n) hab hls hl

/-! ## Concrete cases -/

/-- the settings of `exLevels` meet the hypotheses of C47 and C58 -/
theorem exLevels_known (s : MeshData Int → Outs → Args Int) (hs : s ∈ exLevels) (g' : MeshData Int) (o' : Outs) (n' : Nat) :
    KnownCall exPlatform ((s g' o').onMesh g') o' n' ∧ PathsGiven ((s g' o').onMesh g') o' := by
  obtain ⟨h1, h2, h3⟩ := exLevels_ok s hs g' o'
  refine ⟨⟨h1, h2, Or.inl h3⟩, fun h => ?_⟩
  have : s = fun _ _ => exArgs3 := by simpa [exLevels] using hs
  subst this
  cases h

example := C47_connected (P := exPlatform) (z := -100) (by decide) (by decide) (above := False) exLevels exLine3_good
  (fun h => h.elim) (fun s hs g' o' n' _ _ _ => exLevels_known s hs g' o' n') ⟨[], [], []⟩

/-- three cells, two levels: one cell -/
example : ∃ maps gN, runLevels exPlatform (-100) exLevels exLine3 ⟨[], [], []⟩ = .ok (maps, gN) ∧ GoodMesh gN 1 := by
  obtain ⟨maps, gN, N, h1, h2, h3⟩ := C58_ends (P := exPlatform) (z := -100) (by decide) (by decide) (above := False)
    exLevels exLine3_good (fun h => h.elim) (fun s hs g' o' n' _ _ _ => (exLevels_known s hs g' o' n').1) ⟨[], [], []⟩
  have := h2.pos
  have : N = 1 := by
    rcases h3 with h3 | h3
    · exact h3
    · simp [exLevels] at h3; omega
  subst this
  exact ⟨maps, gN, h1, h2⟩

example := C58_shrinks (P := exPlatform) (a := exArgs3.onMesh exLine3) (o := ⟨[], [], []⟩) (exLine3_good.validMesh _)
  exLine3_good.connected (exLevels_known (fun _ _ => exArgs3) (by simp [exLevels]) exLine3 ⟨[], [], []⟩ 3).1 (by decide)

example := C58_ratio (P := exPlatform) (a := { exArgs3.onMesh exLine3 with correction := false }) (o := ⟨[], [], []⟩)
  { exLine3_good.validMesh exArgs3 with }
  { (exLevels_known (fun _ _ => exArgs3) (by simp [exLevels]) exLine3 ⟨[], [], []⟩ 3).1.params with } rfl (Or.inl rfl)

/-- two levels that use the lines at hand -/
def exFollow : List (MeshData Int → Outs → Args Int) := [fun _ _ => exGiven, fun _ _ => exGiven]

example := C59_lines_followed (P := exPlatform) (z := -100) (by decide) (by decide) (above := False) exFollow exRow4_good
  (fun h => h.elim) (o := exRow4Outs) (ls := [[0, 1, 2, 3]]) ⟨Or.inl ⟨rfl, rfl⟩, by decide, by decide, by
    intro l hl
    simp only [List.mem_singleton] at hl
    subst hl
    intro k x y hx hy
    have hk : k + 1 < 4 := (List.getElem?_eq_some_iff.1 hy).1
    have : k = 0 ∨ k = 1 ∨ k = 2 := by omega
    rcases this with rfl | rfl | rfl <;> (cases hx; cases hy; exact adj_iff_rowOf.2 (by decide))⟩ (by
    intro s hs g' o' n' ls' _ _ _ _
    have : s = fun _ _ => exGiven := by simpa [exFollow] using hs
    subst this
    exact ⟨⟨exGiven_params.dim, exGiven_params.minCard, exGiven_params.goalCard, exGiven_params.maxCard,
      exGiven_params.iter, exGiven_params.thresh, exGiven_params.order, exGiven_params.aspect, by
        rintro (h | h) <;> cases h⟩, fun _ => Or.inl rfl, rfl, (fun h => by cases h), (fun _ l _ m h => by cases h)⟩)

/-- the line of four cells becomes a line of two cells, then of one -/
example : (runLevels exPlatform (-100) exFollow exRow4 exRow4Outs).map Prod.fst = .ok [[0, 0, 1, 1], [0, 0]] := by
  decide +kernel

end CoMMA
