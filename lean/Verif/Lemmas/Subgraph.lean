import Verif.Spec.Subgraph
import Verif.Lemmas.CoarseRows
import Verif.Lemmas.Best
import Mathlib.Data.List.Nodup
/-! # Lemmas on local graphs -/

set_option linter.unusedSectionVars false

namespace CoMMA

variable {W : Type}

theorem rowOf_eq_entries (rp ci : List Nat) (i : Nat) : rowOf rp ci i = entriesOfRow rp ci i := by
  unfold rowOf entriesOfRow
  split <;> simp_all

theorem flatten_block {α : Type} (vs : List (List α)) : ∀ (k : Nat) (v : List α), vs[k]? = some v →
    (vs.flatten.drop (vs.take k).flatten.length).take v.length = v := by
  induction vs with
  | nil => intro k v h; simp at h
  | cons a vs ih =>
    intro k v h
    cases k with
    | zero =>
      simp only [List.getElem?_cons_zero, Option.some.injEq] at h
      subst h; simp
    | succ k =>
      rw [List.getElem?_cons_succ] at h
      simp only [List.take_succ_cons, List.flatten_cons, List.length_append, List.drop_append,
        List.drop_of_length_le (Nat.le_add_right a.length _), List.nil_append, Nat.add_sub_cancel_left]
      exact ih k v h

theorem offsets_map {α : Type} (f : α → Nat) (ls : List (List α)) (gs : List (List Nat))
    (h : gs.map List.length = ls.map List.length) : ∀ k, offsets k (ls.map (List.map f)) = offsets k gs := by
  induction ls generalizing gs with
  | nil =>
    intro k
    cases gs with
    | nil => rfl
    | cons a t => simp at h
  | cons l ls ih =>
    intro k
    cases gs with
    | nil => simp at h
    | cons a t =>
      simp only [List.map_cons, List.cons.injEq] at h
      simp only [List.map_cons, offsets, List.length_map]
      rw [h.1, ih t h.2]

theorem entries_enc {α : Type} {ls : List (List Nat)} {vs : List (List α)}
    (h : vs.map List.length = ls.map List.length) {k : Nat} {v : List α} (hv : vs[k]? = some v) :
    entriesOfRow (offsets 0 ls) vs.flatten k = v := by
  have hk : k < vs.length := (List.getElem?_eq_some_iff.1 hv).1
  have hlen : ls.length = vs.length := by simpa using (congrArg List.length h).symm
  have hkl : k < ls.length := by omega
  have hr := List.getElem?_eq_getElem hkl
  obtain ⟨h4, h5⟩ := offsets_block hr
  have e1 : ls[k].length = v.length := by
    have := congrArg (fun l => l[k]?) h
    simp only [List.getElem?_map, hv, hr, Option.map_some, Option.some.injEq] at this
    exact this.symm
  have e2 : (ls.take k).flatten.length = (vs.take k).flatten.length := by
    simp only [List.length_flatten, List.map_take]
    rw [h]
  unfold entriesOfRow
  rw [h4, h5]
  simp only
  rw [Nat.add_sub_cancel_left, e1, e2]
  exact flatten_block vs k v hv

/-! ### The constructor of `Coarse_Cell_Subgraph` -/

/-- what a cell brings to the local graph -/
def innerRow (g : Graph W) (s : NSet) (i : Nat) : List (Nat × W) :=
  ((rowL g.rowPtr g.colInd i).zip (rowL g.rowPtr g.values i)).filter (fun e => s.has e.1)

theorem sgNeigh_foldl (s : NSet) (l : List (Nat × W)) : ∀ b : SGBuild W, l.foldl (sgNeigh s) b =
    { b with position := b.position + (l.filter (fun e => s.has e.1)).length,
             colInd := b.colInd ++ (l.filter (fun e => s.has e.1)).map (·.1),
             values := b.values ++ (l.filter (fun e => s.has e.1)).map (·.2) } := by
  induction l with
  | nil => intro b; simp
  | cons e l ih =>
    intro b
    rw [List.foldl_cons, ih]
    unfold sgNeigh
    by_cases he : s.has e.1 = true
    · simp [he]; omega
    · simp [he]

/-- what is known of a graph in this part -/
structure WeightedGraph (g : Graph W) : Prop where
  crs : ValidCRS g.nbC g.rowPtr g.colInd
  values : g.values.length = g.colInd.length
  volumes : g.volumes.length = g.nbC

structure SGBuilt (g : Graph W) (s : NSet) (pre : List Nat) (b : SGBuild W) : Prop where
  position : b.position = (pre.map (innerRow g s)).flatten.length
  rowPtr : b.rowPtr = offsets 0 (pre.map (fun i => (innerRow g s i).map (·.1)))
  colInd : b.colInd = (pre.map (fun i => (innerRow g s i).map (·.1))).flatten
  values : b.values = (pre.map (fun i => (innerRow g s i).map (·.2))).flatten
  volumes : b.volumes.map some = pre.map (fun i => g.volumes[i]?)

theorem sgCells_ok {g : Graph W} (hg : WeightedGraph g) {s : NSet} {l : List Nat}
    (hl : ∀ i ∈ l, i < g.nbC) :
    Ok (l.foldlM (sgCell g s) ⟨0, [0], [], [], []⟩) (SGBuilt g s l) := by
  refine Ok.foldlM_prefix (I := SGBuilt g s) ⟨rfl, rfl, rfl, rfl, rfl⟩ ?_
  intro pre i post b hp hb
  have hi : i < g.nbC := hl i (by rw [hp]; simp)
  have hvi : i < g.volumes.length := by rw [hg.volumes]; exact hi
  unfold sgCell
  rw [show g.neighs i = .ok (rowL g.rowPtr g.colInd i) from hg.crs.rowM_eq hi _ rfl,
    show g.weights i = .ok (rowL g.rowPtr g.values i) from hg.crs.rowM_eq hi _ hg.values, rd_of_lt hvi]
  simp only [ok_bind, Ok_pure]
  rw [sgNeigh_foldl]
  have hf : ((rowL g.rowPtr g.colInd i).zip (rowL g.rowPtr g.values i)).filter (fun e => s.has e.1) =
      innerRow g s i := rfl
  rw [hf]
  refine ⟨?_, ?_, ?_, ?_, ?_⟩
  · simp [hb.position]
  · simp only [List.map_append, List.map_cons, List.map_nil]
    rw [offsets_append, hb.rowPtr, hb.position]
    congr 2
    simp only [List.length_map, Nat.zero_add, List.length_flatten, List.map_map, Function.comp_def]
  · simp [hb.colInd]
  · simp [hb.values]
  · simp only [List.map_append, hb.volumes, List.map_cons, List.map_nil]
    simp [hvi]

theorem rowL_lens {g : Graph W} (hg : WeightedGraph g) {i : Nat} (hi : i < g.nbC) :
    (rowL g.rowPtr g.values i).length = (rowL g.rowPtr g.colInd i).length := by
  obtain ⟨b, e, hb, he, _, hle, h5⟩ := hg.crs.row hi g.colInd rfl
  obtain ⟨b', e', hb', he', _, _, h5'⟩ := hg.crs.row hi g.values hg.values
  rw [hb] at hb'; rw [he] at he'
  cases hb'; cases he'
  unfold rowL; rw [h5, h5']
  simp [hg.values]

theorem map_fst_filter_zip {α β : Type} (p : α → Bool) : ∀ (l : List α) (m : List β), m.length = l.length →
    ((l.zip m).filter (fun e => p e.1)).map (·.1) = l.filter p := by
  intro l
  induction l with
  | nil => intro m _; simp
  | cons a l ih =>
    intro m h
    cases m with
    | nil => simp at h
    | cons b m =>
      have := ih m (by simpa using h)
      rw [List.zip_cons_cons]
      by_cases hp : p a = true
      · rw [List.filter_cons_of_pos (by simpa using hp), List.filter_cons_of_pos hp, List.map_cons, this]
      · rw [List.filter_cons_of_neg (by simpa using hp), List.filter_cons_of_neg (by simpa using hp), this]

theorem sgCompactness_ok {n : Nat} {rp ci : List Nat} (hv : ValidCRS n rp ci) :
    Ok (sgCompactness rp n) (fun k => k ≤ n ∧ (∀ l, l < n → k ≤ (rowOf rp ci l).length) ∧
      (k = n ∨ ∃ l, l < n ∧ k = (rowOf rp ci l).length)) := by
  unfold sgCompactness
  refine Ok.mono (Ok.foldlM_prefix (I := fun pre (k : Nat) => k ≤ n ∧
    (∀ l ∈ pre, k ≤ (rowOf rp ci l).length) ∧ (k = n ∨ ∃ l, l < n ∧ k = (rowOf rp ci l).length)) ?_ ?_) ?_
  · exact ⟨Nat.le_refl _, by simp, .inl rfl⟩
  · rintro pre c post k hp ⟨h1, h2, h3⟩
    have hc : c < n := List.mem_range.1 (by rw [hp]; simp)
    obtain ⟨b, e, hb, he, hbe, hle, _⟩ := hv.row hc ci rfl
    have hrow : (rowOf rp ci c).length = e - b := by
      unfold rowOf; rw [hb, he]; simp; omega
    rw [rd_ok.2 hb, rd_ok.2 he]
    simp only [ok_bind]
    rw [if_pos hbe]
    by_cases hlt : e - b < k
    · rw [if_pos hlt]
      refine ⟨by omega, ?_, .inr ⟨c, hc, hrow.symm⟩⟩
      intro l hl
      rcases List.mem_append.1 hl with hl | hl
      · have := h2 l hl; omega
      · rw [List.mem_singleton.1 hl, hrow]; exact Nat.le_refl _
    · rw [if_neg hlt]
      refine ⟨h1, ?_, h3⟩
      intro l hl
      rcases List.mem_append.1 hl with hl | hl
      · exact h2 l hl
      · rw [List.mem_singleton.1 hl, hrow]; omega
  · rintro k ⟨h1, h2, h3⟩
    exact ⟨h1, fun l hl => h2 l (List.mem_range.2 hl), h3⟩

theorem zip_entries {g : Graph W} (hg : WeightedGraph g) {i : Nat} (hi : i < g.nbC) :
    (rowOf g.rowPtr g.colInd i).zip (entriesOfRow g.rowPtr g.values i) =
      (rowL g.rowPtr g.colInd i).zip (rowL g.rowPtr g.values i) := by
  obtain ⟨b, e, hb, he, _, _, h5⟩ := hg.crs.row hi g.colInd rfl
  obtain ⟨b', e', hb', he', _, _, h5'⟩ := hg.crs.row hi g.values hg.values
  rw [hb] at hb'; rw [he] at he'
  cases hb'; cases he'
  unfold rowL rowOf entriesOfRow
  rw [h5, h5', hb, he]

theorem sgOfCell_ok {g : Graph W} (hg : WeightedGraph g) (h : Hash) {s : NSet} (hs : ∀ x ∈ s, x < g.nbC) :
    Ok (sgOfCell g h s) (fun sg => sg.mapping = h.ord 7 s.elems ∧ InducedGraph g sg ∧ Counted sg ∧
      sg.rowPtr[0]? = some 0) := by
  unfold sgOfCell
  have hperm := h.perm 7 s.elems
  have hmem : ∀ x, x ∈ h.ord 7 s.elems ↔ x ∈ s := fun x => hperm.mem_iff
  have hnd : (h.ord 7 s.elems).Nodup := hperm.nodup_iff.2 (s.sorted.imp (fun h => Nat.ne_of_lt h))
  have hlen : s.card = (h.ord 7 s.elems).length := hperm.length_eq.symm
  simp only
  rw [hlen]
  generalize h.ord 7 s.elems = mp at hmem hnd
  refine Ok.bind (sgCells_ok hg (s := s) (fun i hi => hs i ((hmem i).1 hi))) ?_
  intro b hb
  -- rows in the local numbering
  have hcol : b.colInd.map (fun j => mp.idxOf j) =
      (mp.map (fun i => (innerRow g s i).map (fun e => mp.idxOf e.1))).flatten := by
    rw [hb.colInd, List.map_flatten, List.map_map]
    congr 1
    refine List.map_congr_left ?_
    intro i _; simp [Function.comp_def]
  have hptr : b.rowPtr = offsets 0 (mp.map (fun i => (innerRow g s i).map (fun e => mp.idxOf e.1))) := by
    rw [hb.rowPtr]
    have e1 : mp.map (fun i => (innerRow g s i).map (·.1)) = (mp.map (innerRow g s)).map (List.map (·.1)) := by
      rw [List.map_map]; rfl
    rw [e1]
    refine offsets_map _ _ _ ?_ 0
    rw [List.map_map, List.map_map]
    refine List.map_congr_left ?_
    intro i _; simp
  have hin : ∀ i ∈ mp, ∀ e ∈ innerRow g s i, e.1 ∈ mp := by
    intro i _ e he
    have := (List.mem_filter.1 he).2
    exact (hmem _).2 (NSet.has_iff.1 this)
  have hcrs : ValidCRS mp.length b.rowPtr (b.colInd.map (fun j => mp.idxOf j)) := by
    rw [hcol, hptr]
    have := enc_crs (ls := mp.map (fun i => (innerRow g s i).map (fun e => mp.idxOf e.1))) ?_
    · rwa [List.length_map] at this
    · intro r hr l hl
      obtain ⟨i, hi, rfl⟩ := List.mem_map.1 hr
      obtain ⟨e, he, rfl⟩ := List.mem_map.1 hl
      rw [List.length_map]
      exact List.idxOf_lt_length_iff.2 (hin i hi e he)
  unfold SGraph.new
  refine Ok.bind (sgCompactness_ok hcrs) ?_
  rintro k ⟨k1, k2, k3⟩
  rw [Ok_pure]
  refine ⟨rfl, ⟨hnd, hcrs, ?_, ?_, ?_, ?_⟩, ⟨rfl, rfl, k1, k2, k3⟩, ?_⟩
  rotate_left 4
  · rw [hptr]; cases mp <;> rfl
  · intro l c hc
    have := congrArg (fun v => v[l]?) hb.volumes
    simp only [List.getElem?_map] at this
    simp only at hc ⊢
    rw [hc, Option.map_some] at this
    cases hx : b.volumes[l]? with
    | none => rw [hx] at this; cases this
    | some v => rw [hx, Option.map_some] at this; exact Option.some.inj this
  · have := congrArg List.length hb.volumes
    simpa using this
  · intro l c hc
    simp only at hc ⊢
    have hcm : c ∈ mp := List.mem_of_getElem? hc
    have hcn : c < g.nbC := hs c ((hmem c).1 hcm)
    rw [hcol, hptr, rowOf_eq_entries, entries_enc (v := (innerRow g s c).map (fun e => mp.idxOf e.1)) rfl
      (by rw [List.getElem?_map, hc]; rfl)]
    rw [rowOf_eq hg.crs hcn, List.map_map]
    have e1 : (rowL g.rowPtr g.colInd c).filter (fun x => decide (x ∈ mp)) = (innerRow g s c).map (·.1) := by
      unfold innerRow
      rw [map_fst_filter_zip _ _ _ (rowL_lens hg hcn)]
      refine List.filter_congr ?_
      intro x _
      rw [Bool.eq_iff_iff, decide_eq_true_iff, hmem, NSet.has_iff]
    rw [e1, List.map_map]
    refine List.map_congr_left ?_
    intro e he
    simp only [Function.comp]
    rw [List.getElem?_eq_getElem (List.idxOf_lt_length_iff.2 (hin c hcm e he)), List.getElem_idxOf]
  · intro l c hc
    simp only at hc ⊢
    have hcm : c ∈ mp := List.mem_of_getElem? hc
    have hcn : c < g.nbC := hs c ((hmem c).1 hcm)
    rw [hptr, hb.values, entries_enc (v := (innerRow g s c).map (·.2)) ?_ (by rw [List.getElem?_map, hc]; rfl)]
    · rw [zip_entries hg hcn]
      unfold innerRow
      congr 1
      refine List.filter_congr ?_
      intro e _
      rw [Bool.eq_iff_iff, decide_eq_true_iff, hmem, NSet.has_iff]
    · rw [List.map_map, List.map_map]
      refine List.map_congr_left ?_
      intro i _; simp

/-! ### `insert_node` -/

theorem insertEdge_inv {n : Nat} {w : List W} {s s' : Nat × SGraph W} {e : Nat}
    (h : insertEdge n w s e = .ok s') :
    s'.2.mapping = s.2.mapping ∧ s'.2.volumes = s.2.volumes ∧
    s'.2.rowPtr.length = s.2.rowPtr.length ∧ s'.2.colInd.length = s.2.colInd.length + 2 ∧
    ∀ j : Nat, s'.2.rowPtr[j]? = (s.2.rowPtr[j]?).map (fun x => if e ≤ j then x + 1 else x) := by
  unfold insertEdge at h
  obtain ⟨p, _, h⟩ := bind_ok_iff.1 h
  obtain ⟨ci, hci, h⟩ := bind_ok_iff.1 h
  obtain ⟨w', _, h⟩ := bind_ok_iff.1 h
  obtain ⟨vs, _, h⟩ := bind_ok_iff.1 h
  cases h
  unfold insAt at hci
  split at hci
  · cases hci
    refine ⟨rfl, rfl, by simp, by simp; omega, ?_⟩
    intro j
    simp
  · cases hci

theorem insertEdges_inv {n : Nat} {w : List W} : ∀ (l : List Nat) (s s' : Nat × SGraph W),
    l.foldlM (insertEdge n w) s = .ok s' →
    s'.2.mapping = s.2.mapping ∧ s'.2.volumes = s.2.volumes ∧
    s'.2.rowPtr.length = s.2.rowPtr.length ∧ s'.2.colInd.length = s.2.colInd.length + 2 * l.length ∧
    ∀ j : Nat, s'.2.rowPtr[j]? = (s.2.rowPtr[j]?).map (fun x => x + l.countP (fun e => decide (e ≤ j))) := by
  intro l
  induction l with
  | nil =>
    intro s s' h
    cases h
    exact ⟨rfl, rfl, rfl, rfl, fun j => by simp⟩
  | cons e l ih =>
    intro s s' h
    rw [List.foldlM_cons] at h
    obtain ⟨s1, h1, h2⟩ := bind_ok_iff.1 h
    obtain ⟨a1, a2, a3, a4, a5⟩ := insertEdge_inv h1
    obtain ⟨b1, b2, b3, b4, b5⟩ := ih s1 s' h2
    refine ⟨b1.trans a1, b2.trans a2, b3.trans a3, by rw [b4, a4]; simp; omega, ?_⟩
    intro j
    rw [b5, a5, Option.map_map]
    congr 1
    funext x
    simp only [Function.comp, List.countP_cons]
    by_cases he : e ≤ j <;> simp [he] <;> omega

/-- lengths of the rows of a valid graph -/
theorem rowLen {n : Nat} {rp ci : List Nat} (hv : ValidCRS n rp ci) {l b e : Nat} (hb : rp[l]? = some b)
    (he : rp[l + 1]? = some e) (hl : l < n) : (rowOf rp ci l).length = e - b := by
  obtain ⟨b', e', hb', he', _, hle, _⟩ := hv.row hl ci rfl
  rw [hb] at hb'; rw [he] at he'
  cases hb'; cases he'
  unfold rowOf; rw [hb, he]; simp; omega

theorem countP_le_succ (l : List Nat) (j : Nat) :
    l.countP (fun e => decide (e ≤ j + 1)) = l.countP (fun e => decide (e ≤ j)) + l.count (j + 1) := by
  induction l with
  | nil => rfl
  | cons a l ih =>
    rw [List.countP_cons, List.countP_cons, List.count_cons, ih]
    by_cases h : a = j + 1
    · subst h
      have h3 : ¬ j + 1 ≤ j := by omega
      simp [h3]; omega
    · have h1 : (a == j + 1) = false := by simpa using h
      by_cases h2 : a ≤ j
      · simp [h1, h2, Nat.le_succ_of_le h2]; omega
      · have h3 : ¬ a ≤ j + 1 := by omega
        simp [h1, h2, h3]

theorem mem_localNeighs {mp v : List Nat} {l : Nat} (hl : l ∈ localNeighs mp v) : l < mp.length := by
  unfold localNeighs at hl
  obtain ⟨c, _, hc⟩ := List.mem_filterMap.1 hl
  split at hc
  · rename_i h
    cases hc
    exact List.idxOf_lt_length_iff.2 h
  · cases hc

theorem mem_localNeighs_iff {mp v : List Nat} (hnd : mp.Nodup) {l c : Nat} (hc : mp[l]? = some c) :
    l ∈ localNeighs mp v ↔ c ∈ v := by
  have hl := (List.getElem?_eq_some_iff.1 hc).1
  have hcm : c ∈ mp := List.mem_of_getElem? hc
  have hidx : mp.idxOf c = l := by
    have h1 := List.idxOf_lt_length_iff.2 hcm
    have : mp[mp.idxOf c]? = mp[l]? := by rw [hc, List.getElem?_eq_getElem h1, List.getElem_idxOf]
    exact (List.getElem?_inj h1 hnd).1 this
  unfold localNeighs
  rw [List.mem_filterMap]
  constructor
  · rintro ⟨c', hc', h⟩
    split at h
    · rename_i hm
      have : mp.idxOf c' = l := by simpa using h
      have h1 := List.idxOf_lt_length_iff.2 hm
      have e : mp[mp.idxOf c']? = some c' := by rw [List.getElem?_eq_getElem h1, List.getElem_idxOf]
      rw [this, hc] at e; cases e; exact hc'
    · cases h
  · intro h
    exact ⟨c, h, by rw [if_pos hcm, hidx]⟩

/-! ### `remove_node` -/

/-- every entry belongs to a row -/
theorem row_of_entry {n : Nat} {rp ci : List Nat} (hv : ValidCRS n rp ci) (h0 : rp[0]? = some 0) {j : Nat}
    (hj : j ∈ ci) : ∃ k, k < n ∧ j ∈ rowOf rp ci k := by
  obtain ⟨p, hp⟩ := List.mem_iff_getElem?.1 hj
  have hpl := (List.getElem?_eq_some_iff.1 hp).1
  have key : ∀ m, m ≤ n → (∃ e, rp[m]? = some e ∧ e ≤ p) ∨ ∃ k, k < n ∧ j ∈ rowOf rp ci k := by
    intro m
    induction m with
    | zero => intro _; exact .inl ⟨0, h0, Nat.zero_le _⟩
    | succ m ih =>
      intro hm
      rcases ih (by omega) with ⟨b, hb, hbp⟩ | h
      · obtain ⟨e, he, _⟩ := hv.getPtr (i := m + 1) hm
        by_cases hep : e ≤ p
        · exact .inl ⟨e, he, hep⟩
        · exact .inr ⟨m, by omega, adj_iff_rowOf.1 ⟨b, e, p, hb, he, hbp, by omega, hp⟩⟩
      · exact .inr h
  rcases key n (Nat.le_refl _) with ⟨e, he, hep⟩ | h
  · rw [hv.last] at he; cases he; omega
  · exact h

/-- old number of a node after the removal of node `l` -/
def liftAt (l k : Nat) : Nat := if k < l then k else k + 1

/-- new number of a node after the removal of node `l` -/
def dropAt (l k : Nat) : Nat := if k < l then k else k - 1

theorem liftAt_dropAt {l k : Nat} (h : k ≠ l) : liftAt l (dropAt l k) = k := by
  unfold liftAt dropAt
  by_cases h1 : k < l
  · rw [if_pos h1, if_pos h1]
  · rw [if_neg h1, if_neg (by omega)]; omega

theorem renumberCol_ok {size l c : Nat} (h1 : c < size) (h2 : c ≠ l) :
    renumberCol size l c = .ok (dropAt l c) := by
  unfold renumberCol dropAt
  rw [if_neg (by omega), if_neg h2]
  split <;> rfl

theorem mapM_renumber {size l : Nat} : ∀ (ci : List Nat), (∀ c ∈ ci, c < size ∧ c ≠ l) →
    ci.mapM (renumberCol size l) = .ok (ci.map (dropAt l)) := by
  intro ci
  induction ci with
  | nil => intro _; rfl
  | cons c ci ih =>
    intro h
    have hc := h c (by simp)
    rw [List.mapM_cons, renumberCol_ok hc.1 hc.2, ok_bind, ih (fun x hx => h x (by simp [hx]))]
    rfl

theorem eraseIdx_lift {α : Type} (v : List α) (l k : Nat) : (v.eraseIdx l)[k]? = v[liftAt l k]? := by
  rw [List.getElem?_eraseIdx]
  unfold liftAt
  split <;> rfl

/-- rows after the removal of a node with an empty row -/
theorem entries_erase {α : Type} {rp : List Nat} {l b : Nat} (h1 : rp[l]? = some b) (h2 : rp[l + 1]? = some b)
    (u : List α) (k : Nat) : entriesOfRow (rp.eraseIdx l) u k = entriesOfRow rp u (liftAt l k) := by
  unfold entriesOfRow
  rw [eraseIdx_lift, eraseIdx_lift]
  by_cases hk : k < l
  · have e1 : liftAt l k = k := by unfold liftAt; rw [if_pos hk]
    rw [e1]
    by_cases hk2 : k + 1 < l
    · have e2 : liftAt l (k + 1) = k + 1 := by unfold liftAt; rw [if_pos hk2]
      rw [e2]
    · have e2 : liftAt l (k + 1) = l + 1 := by unfold liftAt; rw [if_neg hk2]; omega
      rw [e2, h2, show k + 1 = l by omega, h1]
  · have e1 : liftAt l k = k + 1 := by unfold liftAt; rw [if_neg hk]
    have e2 : liftAt l (k + 1) = k + 1 + 1 := by unfold liftAt; rw [if_neg (by omega)]
    rw [e1, e2]

theorem map_entries {α β : Type} (f : α → β) (rp : List Nat) (u : List α) (k : Nat) :
    entriesOfRow rp (u.map f) k = (entriesOfRow rp u k).map f := by
  unfold entriesOfRow
  split <;> simp [List.map_take, List.map_drop]

end CoMMA
