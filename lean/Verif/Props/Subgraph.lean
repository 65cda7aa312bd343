import Verif.Lemmas.Subgraph
import Verif.Spec.Examples
/-! # Local graphs of coarse cells (C36, C52) -/

namespace CoMMA

variable {W : Type}

/-- **C52** The local graph built for a coarse cell is the part of the fine graph on its cells:
same rows in the same order, same weights and volumes, in a numbering given by the mapping, for
every iteration order of the set of cells.  Its counters are right. -/
theorem C52_local_graph {g : Graph W} (hg : WeightedGraph g) (h : Hash) {s : NSet} (hs : ∀ x ∈ s, x < g.nbC) :
    ∃ sg, sgOfCell g h s = .ok sg ∧ sg.mapping.Perm s.elems ∧ InducedGraph g sg ∧ Counted sg ∧
      sg.rowPtr[0]? = some 0 := by
  obtain ⟨sg, e, h1, h2, h3, h4⟩ := (sgOfCell_ok hg h hs).eq
  exact ⟨sg, e, by rw [h1]; exact h.perm 7 _, h2, h3, h4⟩

/-- neighbours of `c` in the subgraph, counted from the row of node `l` -/
theorem InducedGraph.rowLen {g : Graph W} {sg : SGraph W} (h : InducedGraph g sg) {l c : Nat}
    (hc : sg.mapping[l]? = some c) : (rowOf sg.rowPtr sg.colInd l).length =
      (rowOf g.rowPtr g.colInd c).countP (fun x => decide (x ∈ sg.mapping)) := by
  have := congrArg List.length (h.rows l c hc)
  rwa [List.length_map, List.length_map, ← List.countP_eq_length_filter] at this

/-- **C36** is violated by every insertion that matters: when the inserted cell has a neighbour
at all, in the subgraph or not, the result is never the part of the graph on the old cells and
the new one. -/
theorem C36_insert_never {g : Graph W} (hsym : SymmetricCRS g.rowPtr g.colInd) {sg sg' : SGraph W}
    (hi : InducedGraph g sg) {c : Nat} (hc : c ∉ sg.mapping) (hne : rowOf g.rowPtr g.colInd c ≠ [])
    {v : W} {ws : List W}
    (h : sg.insertNode (rowOf g.rowPtr g.colInd c) c v ws = .ok sg') : ¬ InducedGraph g sg' := by
  intro hi'
  unfold SGraph.insertNode at h
  obtain ⟨s, h1, h⟩ := bind_ok_iff.1 h
  obtain ⟨last, h2, h⟩ := bind_ok_iff.1 h
  cases h
  obtain ⟨a1, a2, a3, a4, a5⟩ := insertEdges_inv _ _ _ h1
  simp only at a1 a2 a3 a4 a5
  have hmp : s.2.mapping ++ [c] = sg.mapping ++ [c] := by rw [a1]
  have hrl : s.2.rowPtr.length = sg.mapping.length + 1 := by rw [a3]; exact hi.crs.rows
  rw [rd_ok] at h2
  have hcrs : ValidCRS (s.2.mapping ++ [c]).length
    (s.2.rowPtr ++ [last + (rowOf g.rowPtr g.colInd c).length]) s.2.colInd := hi'.crs
  generalize hE : localNeighs sg.mapping (rowOf g.rowPtr g.colInd c) = E at *
  have hEn : ∀ e ∈ E, e < sg.mapping.length := by
    intro e he; rw [← hE] at he; exact mem_localNeighs he
  -- every old row gains an entry for the next node, and should gain one for itself
  have step : ∀ j, j < sg.mapping.length → (j ∈ E ↔ 0 < E.count (j + 1)) := by
    intro j hj
    obtain ⟨b, e, hb, he, hbe, _, _⟩ := hi.crs.row hj sg.colInd rfl
    have hb' : (s.2.rowPtr ++ [last + (rowOf g.rowPtr g.colInd c).length])[j]? =
        some (b + E.countP (fun x => decide (x ≤ j))) := by
      rw [List.getElem?_append_left (by omega), a5, hb]; rfl
    have he' : (s.2.rowPtr ++ [last + (rowOf g.rowPtr g.colInd c).length])[j + 1]? =
        some (e + E.countP (fun x => decide (x ≤ j + 1))) := by
      rw [List.getElem?_append_left (by omega), a5, he]; rfl
    have hmj := List.getElem?_eq_getElem hj
    have hlj : j < (s.2.mapping ++ [c]).length := by rw [hmp]; simp; omega
    have l1 := hi.rowLen hmj
    have l2 := hi'.rowLen (l := j) (c := sg.mapping[j]) (by
      show (s.2.mapping ++ [c])[j]? = _
      rw [hmp, List.getElem?_append_left hj]; exact hmj)
    simp only at l2
    rw [CoMMA.rowLen hi.crs hb he hj] at l1
    rw [CoMMA.rowLen hcrs hb' he' hlj, hmp, countP_le_succ] at l2
    have l3 : ∀ row : List Nat, row.countP (fun x => decide (x ∈ sg.mapping ++ [c])) =
        row.countP (fun x => decide (x ∈ sg.mapping)) + row.count c := by
      intro row
      induction row with
      | nil => rfl
      | cons x row ih =>
        rw [List.countP_cons, List.countP_cons, List.count_cons, ih]
        by_cases hx : x = c
        · subst hx; simp [hc]; omega
        · by_cases hxm : x ∈ sg.mapping <;> simp [hx, hxm]; omega
    rw [l3] at l2
    have hcount : 0 < (rowOf g.rowPtr g.colInd sg.mapping[j]).count c ↔ j ∈ E := by
      rw [List.count_pos_iff, ← adj_iff_rowOf, ← hE, mem_localNeighs_iff hi.nodup hmj, ← adj_iff_rowOf]
      exact ⟨hsym _ _, hsym _ _⟩
    rw [← hcount]
    omega
  -- so no old node is a neighbour
  have none : ∀ k j, j + k = sg.mapping.length → j ∉ E := by
    intro k
    induction k with
    | zero => intro j hj hin; have := hEn j hin; omega
    | succ k ih =>
      intro j hj hin
      have := (step j (by omega)).1 hin
      exact ih (j + 1) (by omega) (List.count_pos_iff.1 this)
  have hEe : E = [] := by
    cases hEc : E with
    | nil => rfl
    | cons e t =>
      have he : e ∈ E := by rw [hEc]; simp
      have := hEn e he
      exact absurd he (none (sg.mapping.length - e) e (by omega))
  -- and the last row pointer is too large
  have hl := hcrs.last
  rw [hmp, List.length_append, List.length_singleton, List.getElem?_append_right (by omega), hrl] at hl
  have h3 : last = sg.colInd.length := by
    rw [hrl, Nat.add_sub_cancel, a5, hi.crs.last, hEe] at h2
    simpa using h2.symm
  rw [hEe] at a4
  simp only [Nat.sub_self, List.getElem?_cons_zero, Option.some.injEq] at hl
  have := List.length_pos_iff.2 hne
  simp at a4
  omega

/-- **C36** (partial, insertion) A cell without neighbours is inserted correctly (the counters of
the subgraph are not updated).  Missing: cells with neighbours, for which the property is false
(`C36_insert_never`). -/
theorem C36_insert_partial {g : Graph W} (hsym : SymmetricCRS g.rowPtr g.colInd) {sg : SGraph W}
    (hi : InducedGraph g sg) {c : Nat} (hc : c ∉ sg.mapping) (hne : rowOf g.rowPtr g.colInd c = [])
    {v : W} (hv : g.volumes[c]? = some v) (ws : List W) :
    ∃ sg', sg.insertNode [] c v ws = .ok sg' ∧ InducedGraph g sg' ∧ sg'.mapping = sg.mapping ++ [c] := by
  have hrl := hi.crs.rows
  have hlast : rd sg.rowPtr (sg.rowPtr.length - 1) = .ok sg.colInd.length := by
    rw [rd_ok, hrl, Nat.add_sub_cancel]; exact hi.crs.last
  refine ⟨{ sg with rowPtr := sg.rowPtr ++ [sg.colInd.length + 0], volumes := sg.volumes ++ [v],
                    mapping := sg.mapping ++ [c] }, ?_, ?_, rfl⟩
  · unfold SGraph.insertNode localNeighs
    simp only [List.filterMap_nil, List.foldlM_nil, List.length_nil]
    rw [show (pure (0, sg) : M (Nat × SGraph W)) = .ok (0, sg) from rfl, ok_bind, hlast]
    rfl
  · -- entries of the old rows are the same
    have ptr : ∀ l : Nat, l ≤ sg.mapping.length → (sg.rowPtr ++ [sg.colInd.length + 0])[l]? = sg.rowPtr[l]? := by
      intro l hl; rw [List.getElem?_append_left (by omega)]
    have ptrLast : (sg.rowPtr ++ [sg.colInd.length + 0])[sg.mapping.length + 1]? = some sg.colInd.length := by
      rw [List.getElem?_append_right (by omega), hrl]; simp
    have old : ∀ {α : Type} (u : List α) (l : Nat), l < sg.mapping.length →
        entriesOfRow (sg.rowPtr ++ [sg.colInd.length + 0]) u l = entriesOfRow sg.rowPtr u l := by
      intro α u l hl
      unfold entriesOfRow
      rw [ptr l (by omega), ptr (l + 1) (by omega)]
    have new : ∀ {α : Type} (u : List α),
        entriesOfRow (sg.rowPtr ++ [sg.colInd.length + 0]) u sg.mapping.length = [] := by
      intro α u
      unfold entriesOfRow
      rw [ptr _ (Nat.le_refl _), hi.crs.last, ptrLast]
      simp
    have notc : ∀ x, c ∉ rowOf g.rowPtr g.colInd x := by
      intro x hx
      have := hsym _ _ (adj_iff_rowOf.2 hx)
      rw [adj_iff_rowOf, hne] at this
      cases this
    have cases_ : ∀ l c', (sg.mapping ++ [c])[l]? = some c' →
        (l < sg.mapping.length ∧ sg.mapping[l]? = some c') ∨ (l = sg.mapping.length ∧ c' = c) := by
      intro l c' h
      by_cases hl : l < sg.mapping.length
      · left; rw [List.getElem?_append_left hl] at h; exact ⟨hl, h⟩
      · right
        have := (List.getElem?_eq_some_iff.1 h).1
        simp at this
        have e : l = sg.mapping.length := by omega
        subst e
        simp at h
        exact ⟨rfl, h.symm⟩
    have filt : ∀ x : Nat, ∀ row : List Nat, c ∉ row → row.filter (fun x => decide (x ∈ sg.mapping ++ [c])) =
        row.filter (fun x => decide (x ∈ sg.mapping)) := by
      intro _ row hrow
      refine List.filter_congr ?_
      intro y hy
      have : y ≠ c := fun e => hrow (e ▸ hy)
      simp [this]
    refine ⟨?_, ⟨?_, ?_, ?_, ?_⟩, ?_, ?_, ?_, ?_⟩
    · show (sg.mapping ++ [c]).Nodup
      rw [List.nodup_append]
      exact ⟨hi.nodup, by simp, by intro a ha b hb; rw [List.mem_singleton.1 hb]; rintro rfl; exact hc ha⟩
    · simp [hrl]
    · intro i b e hb he
      simp only at hb he
      by_cases hl : i + 1 ≤ sg.mapping.length
      · rw [ptr _ (by omega)] at hb; rw [ptr _ hl] at he
        exact hi.crs.mono i b e hb he
      · by_cases hl2 : i = sg.mapping.length
        · subst hl2
          rw [ptr _ (Nat.le_refl _), hi.crs.last] at hb; rw [ptrLast] at he
          cases hb; cases he; exact Nat.le_refl _
        · rw [List.getElem?_eq_none (by simp; omega)] at he; cases he
    · simp only [List.length_append, List.length_singleton]; exact ptrLast
    · intro j hj
      have := hi.crs.range j hj
      simp only [List.length_append, List.length_singleton]; omega
    · intro l c' h
      simp only at h ⊢
      rcases cases_ l c' h with ⟨hl, h'⟩ | ⟨rfl, rfl⟩
      · rw [List.getElem?_append_left (by rw [hi.vlen]; exact hl)]
        exact hi.volumes l c' h'
      · rw [List.getElem?_append_right (by rw [hi.vlen]; exact Nat.le_refl _), hi.vlen]; simp [hv]
    · simp [hi.vlen]
    · intro l c' h
      simp only at h ⊢
      rw [rowOf_eq_entries]
      rcases cases_ l c' h with ⟨hl, h'⟩ | ⟨rfl, rfl⟩
      · rw [old _ l hl, filt 0 _ (notc c'), ← hi.rows l c' h', rowOf_eq_entries]
        refine List.map_congr_left ?_
        intro l' hl'
        have : l' < sg.mapping.length := by
          rw [← rowOf_eq_entries, ← adj_iff_rowOf] at hl'
          exact (hi.crs.adj_lt hl').2
        rw [List.getElem?_append_left this]
      · rw [new, hne]; rfl
    · intro l c' h
      simp only at h ⊢
      rcases cases_ l c' h with ⟨hl, h'⟩ | ⟨rfl, rfl⟩
      · rw [old _ l hl, hi.weights l c' h']
        congr 1
        refine List.filter_congr ?_
        intro e he
        have h1 : e.1 ∈ rowOf g.rowPtr g.colInd c' := (List.of_mem_zip (a := e.1) (b := e.2) he).1
        have : e.1 ≠ c := by rintro e'; exact notc c' (e' ▸ h1)
        simp [this]
      · rw [new, hne]; rfl

/-- **C36** is violated by every removal that matters: removing a node that has a neighbour in
the subgraph is undefined behaviour (an iterator is used after `erase`). -/
theorem C36_remove_ub {g : Graph W} {sg : SGraph W} (hi : InducedGraph g sg) {l c x : Nat}
    (hc : sg.mapping[l]? = some c) (hx : x ∈ sg.mapping) (ha : Adj g.rowPtr g.colInd c x) :
    sg.removeNode c = .error .ub := by
  have hl := (List.getElem?_eq_some_iff.1 hc).1
  have hcm : c ∈ sg.mapping := List.mem_of_getElem? hc
  have hidx : sg.mapping.idxOf c = l := by
    have h1 := List.idxOf_lt_length_iff.2 hcm
    have : sg.mapping[sg.mapping.idxOf c]? = sg.mapping[l]? := by
      rw [hc, List.getElem?_eq_getElem h1, List.getElem_idxOf]
    exact (List.getElem?_inj h1 hi.nodup).1 this
  have hne : rowOf sg.rowPtr sg.colInd l ≠ [] := by
    intro he
    have := hi.rowLen hc
    rw [he] at this
    have h2 : 0 < (rowOf g.rowPtr g.colInd c).countP (fun x => decide (x ∈ sg.mapping)) :=
      List.countP_pos_iff.2 ⟨x, adj_iff_rowOf.1 ha, by simpa using hx⟩
    rw [List.length_nil] at this
    omega
  unfold SGraph.removeNode
  simp only
  rw [hidx, hi.crs.rowM_eq hl _ rfl, ← rowOf_eq hi.crs hl]
  simp only [ok_bind]
  rw [if_pos hne]
  have key : ∀ row : List Nat, (∀ j ∈ row, j < sg.mapping.length) →
      (row.forM (eraseInRow sg l) = .error .ub ∨ row.forM (eraseInRow sg l) = .ok ()) := by
    intro row
    induction row with
    | nil => intro _; exact .inr rfl
    | cons j row ih =>
      intro hj
      show (eraseInRow sg l j >>= fun _ => row.forM (eraseInRow sg l)) = _ ∨
        (eraseInRow sg l j >>= fun _ => row.forM (eraseInRow sg l)) = _
      have e : eraseInRow sg l j = .error .ub ∨ eraseInRow sg l j = .ok () := by
        unfold eraseInRow
        rw [hi.crs.rowM_eq (hj j (by simp)) _ rfl]
        simp only [ok_bind]
        split
        · exact .inl rfl
        · exact .inr rfl
      rcases e with e | e
      · left; rw [e]; rfl
      · rw [e, ok_bind]; exact ih (fun k hk => hj k (by simp [hk]))
  rcases key (rowOf sg.rowPtr sg.colInd l) (by
    intro j hj
    exact (hi.crs.adj_lt (adj_iff_rowOf.2 hj)).2) with h | h
  · rw [h]; rfl
  · rw [h]; rfl

/-- **C36** (partial, removal) A node without neighbours in the subgraph is removed correctly:
the result is the part of the graph on the other cells (the counters are not updated).  Missing:
nodes with neighbours, for which the property is false (`C36_remove_ub`). -/
theorem C36_remove_partial {g : Graph W} (hsym : SymmetricCRS g.rowPtr g.colInd) {sg : SGraph W}
    (hi : InducedGraph g sg) (h0 : sg.rowPtr[0]? = some 0) {l c : Nat} (hc : sg.mapping[l]? = some c)
    (hno : ∀ x ∈ sg.mapping, ¬ Adj g.rowPtr g.colInd c x) :
    ∃ sg', sg.removeNode c = .ok sg' ∧ InducedGraph g sg' ∧ sg'.mapping = sg.mapping.eraseIdx l := by
  have hl := (List.getElem?_eq_some_iff.1 hc).1
  have hcm : c ∈ sg.mapping := List.mem_of_getElem? hc
  have uniq : ∀ {l' : Nat}, sg.mapping[l']? = some c → l' = l := by
    intro l' h'
    have h1 := (List.getElem?_eq_some_iff.1 h').1
    exact (List.getElem?_inj h1 hi.nodup).1 (by rw [h', hc])
  have hidx : sg.mapping.idxOf c = l := by
    refine uniq ?_
    rw [List.getElem?_eq_getElem (List.idxOf_lt_length_iff.2 hcm), List.getElem_idxOf]
  have hrow : rowOf sg.rowPtr sg.colInd l = [] := by
    refine List.length_eq_zero_iff.1 ?_
    rw [hi.rowLen hc, List.countP_eq_zero]
    intro x hx
    simp only [decide_eq_true_eq]
    intro hxm; exact hno x hxm (adj_iff_rowOf.2 hx)
  -- nobody refers to the node
  have hcol : ∀ j ∈ sg.colInd, j < sg.mapping.length ∧ j ≠ l := by
    intro j hj
    refine ⟨hi.crs.range j hj, ?_⟩
    rintro rfl
    obtain ⟨k, hk, hjk⟩ := row_of_entry hi.crs h0 hj
    have hmk := List.getElem?_eq_getElem hk
    have := hi.rows k _ hmk
    have h1 : some c ∈ (rowOf sg.rowPtr sg.colInd k).map (fun l' => sg.mapping[l']?) :=
      List.mem_map.2 ⟨j, hjk, hc⟩
    rw [this] at h1
    obtain ⟨y, hy, e⟩ := List.mem_map.1 h1
    cases e
    have h2 := (List.mem_filter.1 hy).1
    exact hno _ (List.getElem_mem hk) (hsym _ _ (adj_iff_rowOf.2 h2))
  obtain ⟨b, e, hb, he, hbe, hle, _⟩ := hi.crs.row hl sg.colInd rfl
  have hlen := CoMMA.rowLen hi.crs hb he hl
  rw [hrow, List.length_nil] at hlen
  have hebe : e = b := by omega
  subst hebe
  have hrl := hi.crs.rows
  have hpl : (sg.rowPtr.eraseIdx l).length = sg.mapping.length := by
    rw [List.length_eraseIdx, if_pos (by omega)]; omega
  refine ⟨{ sg with rowPtr := sg.rowPtr.eraseIdx l, colInd := sg.colInd.map (dropAt l),
                    volumes := sg.volumes.eraseIdx l, mapping := sg.mapping.eraseIdx l }, ?_, ?_, rfl⟩
  · unfold SGraph.removeNode
    simp only
    rw [hidx, hi.crs.rowM_eq hl _ rfl, ← rowOf_eq hi.crs hl, hrow]
    simp only [ok_bind]
    rw [show ([] : List Nat).forM (eraseInRow sg l) = (.ok () : M Unit) from rfl, ok_bind, if_neg (by simp),
      if_pos ⟨by rw [hi.vlen]; exact hl, hl⟩, mapM_renumber sg.colInd (fun j hj => ?_)]
    · rfl
    · have := hcol j hj
      exact ⟨by rw [hpl]; omega, this.2⟩
  · have hml : (sg.mapping.eraseIdx l).length = sg.mapping.length - 1 := by
      rw [List.length_eraseIdx, if_pos hl]
    have notc : ∀ {k x : Nat}, (sg.mapping.eraseIdx l)[k]? = some x → c ∉ rowOf g.rowPtr g.colInd x := by
      intro k x hk hcx
      rw [eraseIdx_lift] at hk
      exact hno x (List.mem_of_getElem? hk) (hsym _ _ (adj_iff_rowOf.2 hcx))
    have memE : ∀ y, y ≠ c → (y ∈ sg.mapping.eraseIdx l ↔ y ∈ sg.mapping) := by
      intro y hy
      constructor
      · exact fun h => List.mem_of_mem_eraseIdx h
      · intro h
        obtain ⟨k, hk⟩ := List.mem_iff_getElem?.1 h
        have hkl : k ≠ l := by rintro rfl; rw [hc] at hk; exact hy (Option.some.inj hk).symm
        refine List.mem_iff_getElem?.2 ⟨dropAt l k, ?_⟩
        rw [eraseIdx_lift, liftAt_dropAt hkl]; exact hk
    refine ⟨hi.nodup.eraseIdx l, ⟨?_, ?_, ?_, ?_⟩, ?_, ?_, ?_, ?_⟩
    · simp only; rw [hpl, hml]; omega
    · intro i b' e' hb' he'
      simp only at hb' he'
      rw [eraseIdx_lift] at hb' he'
      by_cases hil : i < l
      · have e1 : liftAt l i = i := by unfold liftAt; rw [if_pos hil]
        rw [e1] at hb'
        by_cases hil2 : i + 1 < l
        · have e2 : liftAt l (i + 1) = i + 1 := by unfold liftAt; rw [if_pos hil2]
          rw [e2] at he'
          exact hi.crs.mono i _ _ hb' he'
        · have e2 : liftAt l (i + 1) = l + 1 := by unfold liftAt; rw [if_neg hil2]; omega
          rw [e2, he] at he'
          cases he'
          refine hi.crs.mono i _ _ hb' ?_
          rw [show i + 1 = l by omega]; exact hb
      · have e1 : liftAt l i = i + 1 := by unfold liftAt; rw [if_neg hil]
        have e2 : liftAt l (i + 1) = i + 1 + 1 := by unfold liftAt; rw [if_neg (by omega)]
        rw [e1] at hb'; rw [e2] at he'
        exact hi.crs.mono (i + 1) _ _ hb' he'
    · simp only
      rw [hml, eraseIdx_lift, List.length_map]
      have : liftAt l (sg.mapping.length - 1) = sg.mapping.length := by
        unfold liftAt; rw [if_neg (by omega)]; omega
      rw [this]; exact hi.crs.last
    · intro j hj
      simp only at hj ⊢
      obtain ⟨j', hj', rfl⟩ := List.mem_map.1 hj
      have := hcol j' hj'
      rw [hml]
      unfold dropAt
      split <;> omega
    · intro k x hk
      simp only at hk ⊢
      rw [eraseIdx_lift] at hk ⊢
      exact hi.volumes _ x hk
    · simp only
      rw [List.length_eraseIdx, if_pos (by rw [hi.vlen]; exact hl), hml, hi.vlen]
    · intro k x hk
      simp only at hk ⊢
      have hnc := notc hk
      rw [eraseIdx_lift] at hk
      have hlt := (List.getElem?_eq_some_iff.1 hk).1
      rw [rowOf_eq_entries, map_entries, entries_erase hb he, ← rowOf_eq_entries, List.map_map]
      have e1 : (rowOf g.rowPtr g.colInd x).filter (fun y => decide (y ∈ sg.mapping.eraseIdx l)) =
          (rowOf g.rowPtr g.colInd x).filter (fun y => decide (y ∈ sg.mapping)) := by
        refine List.filter_congr ?_
        intro y hy
        rw [decide_eq_decide]
        exact memE y (fun e => hnc (e ▸ hy))
      rw [e1, ← hi.rows _ x hk]
      refine List.map_congr_left ?_
      intro j hj
      simp only [Function.comp]
      rw [eraseIdx_lift, liftAt_dropAt]
      refine (hcol j ?_).2
      obtain ⟨_, _, p, _, _, _, _, h5⟩ := adj_iff_rowOf.2 hj
      exact List.mem_of_getElem? h5
    · intro k x hk
      simp only at hk ⊢
      have hnc := notc hk
      rw [eraseIdx_lift] at hk
      rw [entries_erase hb he, hi.weights _ x hk]
      congr 1
      refine List.filter_congr ?_
      intro e' he'
      have h1 : e'.1 ∈ rowOf g.rowPtr g.colInd x := (List.of_mem_zip (a := e'.1) (b := e'.2) he').1
      rw [decide_eq_decide]
      exact (memE _ (fun e => hnc (e ▸ h1))).symm

/-! ## A concrete case: cells 0-1-2 in a row, cell 3 alone -/

/-- the graph -/
def exSub : Graph Int :=
  ⟨4, [0, 1, 3, 4, 4], [1, 0, 2, 1], [5, 5, 6, 6], [1, 2, 3, 4], [], [], 2, NSet.empty⟩

example : WeightedGraph exSub ∧ SymmetricCRS exSub.rowPtr exSub.colInd :=
  ⟨⟨checkCRS_sound (by decide), by decide, by decide⟩,
   checkSym_sound (n := 4) (checkCRS_sound (by decide)) (by decide)⟩

/-- the local graph of the cells 0, 1 and 3, met in decreasing order: cell 1 comes second -/
example : (sgOfCell exSub Hash.rev (NSet.ofList [0, 1, 3])).map
      (fun s => (s.mapping, s.rowPtr, s.colInd, s.values, s.volumes)) =
    .ok ([3, 1, 0], [0, 0, 1, 2], [2, 1], [5, 5], [4, 2, 1]) := by decide +kernel

/-- insertion of cell 2, that has the neighbour 1 in the subgraph of 1 and 3: the row of cell 1
does not get the new neighbour, that of cell 3 does -/
example : (sgOfCell exSub Hash.rev (NSet.ofList [1, 3]) >>= fun s =>
      s.insertNode [1] 2 3 [6]).map (fun s => (s.mapping, rowOf s.rowPtr s.colInd 0, rowOf s.rowPtr s.colInd 1)) =
    .ok ([3, 1, 2], [2], []) := by decide +kernel

/-- removal of cell 3 -/
example : (sgOfCell exSub Hash.rev (NSet.ofList [0, 1, 3]) >>= fun s => s.removeNode 3).map
      (fun s => (s.mapping, s.rowPtr, s.colInd)) = .ok ([1, 0], [0, 1, 2], [1, 0]) := by decide +kernel

/-- removal of cell 1 -/
example : (sgOfCell exSub Hash.rev (NSet.ofList [0, 1, 3]) >>= fun s => s.removeNode 1).map
      (fun s => s.mapping) = .error .ub := by rfl

end CoMMA
