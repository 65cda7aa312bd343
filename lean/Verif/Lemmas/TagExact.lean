import Verif.Lemmas.LineData
/-! # Reference couplings computed with the tagging -/

set_option linter.unusedSectionVars false

namespace CoMMA

variable {W : Type} [Num W]

theorem maxWeightM_ok (hW : LawfulLt W) {l : List W} (h : l ≠ []) :
    Ok (maxWeightM l) (fun m => m ∈ l ∧ ∀ y ∈ l, Num.lt m y = false) := by
  match l, h with
  | x :: xs, _ =>
    show (fun m => m ∈ x :: xs ∧ ∀ y ∈ x :: xs, Num.lt m y = false) _
    have key : ∀ (xs : List W) (x : W),
        (xs.foldl (fun m y => if Num.lt m y then y else m) x = x ∨ xs.foldl (fun m y => if Num.lt m y then y else m) x ∈ xs) ∧
        Num.lt (xs.foldl (fun m y => if Num.lt m y then y else m) x) x = false ∧
        ∀ y ∈ xs, Num.lt (xs.foldl (fun m y => if Num.lt m y then y else m) x) y = false := by
      intro xs
      induction xs with
      | nil => intro x; simp [hW.irrefl]
      | cons z zs ih =>
        intro x
        obtain ⟨h1, h2, h3⟩ := ih (if Num.lt x z then z else x)
        simp only [List.foldl_cons]
        have hx : Num.lt (if Num.lt x z then z else x) x = false := by
          split
          · rename_i hc; exact hW.asymm hc
          · exact hW.irrefl _
        have hz : Num.lt (if Num.lt x z then z else x) z = false := by
          split
          · exact hW.irrefl _
          · rename_i hc; simpa using hc
        refine ⟨?_, hW.le_trans hx h2, ?_⟩
        · rcases h1 with h1 | h1
          · rw [h1]
            split
            · right; simp
            · left; rfl
          · right; simp [h1]
        · intro y hy
          rcases List.mem_cons.1 hy with rfl | hy
          · exact hW.le_trans hz h2
          · exact h3 y hy
    obtain ⟨h1, h2, h3⟩ := key xs x
    refine ⟨?_, ?_⟩
    · rcases h1 with h1 | h1
      · rw [h1]; simp
      · simp [h1]
    · intro y hy
      rcases List.mem_cons.1 hy with rfl | hy
      · exact h2
      · exact h3 y hy

theorem concat_getElem? {α : Type} {l : List α} {a b : α} {j : Nat} :
    (l ++ [a])[j]? = some b ↔ l[j]? = some b ∨ (j = l.length ∧ a = b) := by
  rcases Nat.lt_trichotomy j l.length with h | h | h
  · rw [List.getElem?_append_left h]
    simp [Nat.ne_of_lt h]
  · subst h
    simp
  · rw [List.getElem?_append_right (by omega), List.getElem?_eq_none (by simp; omega), List.getElem?_eq_none (by omega)]
    simp [Nat.ne_of_gt h]

theorem distWeights_exact (hW : LawfulLt W) {g : Graph W} (h : ValidCRS g.nbC g.rowPtr g.colInd) (hm : MeshSizes g)
    {i : Nat} (hi : i < g.nbC) {alt : List W} (ha : alt.length = g.values.length) :
    Ok (distWeights g i alt) (fun r => r.1.length = g.values.length ∧
      (∀ k n, FaceAt g i k n → ∃ w, r.1[k]? = some w ∧ CouplingAt g .minDistance i k n w) ∧
      (∀ k, (∀ n, ¬ FaceAt g i k n) → r.1[k]? = alt[k]?) ∧ StrongestOf g .minDistance i r.2) := by
  unfold distWeights
  obtain ⟨b, hb, hbl⟩ := row_offset h hi
  obtain ⟨D, hD⟩ := hm.coords
  have hic : i < g.centers.length := by rw [hm.centers]; exact hi
  rw [hb, ok_bind, neighs_eq h hi, ok_bind, rd_of_lt hic, ok_bind]
  refine Ok.bind (P := fun (r : Nat × List W × W) => r.2.1.length = g.values.length ∧
    (∀ (j : Nat) n, (rowL g.rowPtr g.colInd i)[j]? = some n → ∃ w, r.2.1[b + j]? = some w ∧ CouplingAt g .minDistance i (b + j) n w) ∧
    (∀ k : Nat, (∀ j, j < (rowL g.rowPtr g.colInd i).length → k ≠ b + j) → r.2.1[k]? = alt[k]?) ∧
    (∀ (j : Nat) n w, (rowL g.rowPtr g.colInd i)[j]? = some n → CouplingAt g .minDistance i (b + j) n w → Num.lt r.2.2 w = false) ∧
    ((∃ (j : Nat) (n : Nat), (rowL g.rowPtr g.colInd i)[j]? = some n ∧ CouplingAt g .minDistance i (b + j) n r.2.2) ∨ r.2.2 = Num.ofNat 0)) ?_ ?_
  · refine Ok.mono (Ok.foldlM_prefix (I := fun (pre : List Nat) (r : Nat × List W × W) => r.1 = b + pre.length ∧
      r.2.1.length = g.values.length ∧
      (∀ (j : Nat) n, pre[j]? = some n → ∃ w, r.2.1[b + j]? = some w ∧ CouplingAt g .minDistance i (b + j) n w) ∧
      (∀ k : Nat, (∀ j, j < pre.length → k ≠ b + j) → r.2.1[k]? = alt[k]?) ∧
      (∀ (j : Nat) n w, pre[j]? = some n → CouplingAt g .minDistance i (b + j) n w → Num.lt r.2.2 w = false) ∧
      ((∃ (j : Nat) (n : Nat), pre[j]? = some n ∧ CouplingAt g .minDistance i (b + j) n r.2.2) ∨ r.2.2 = Num.ofNat 0))
      ⟨rfl, ha, by simp, by simp, by simp, Or.inr rfl⟩ ?_) (fun r hr => hr.2)
    rintro pre n post s hsp ⟨h1, h2, h3, h4, h5, h6⟩
    have hn : n < g.nbC := h.rowL_lt hi (by rw [hsp]; simp)
    have hnc : n < g.centers.length := by rw [hm.centers]; exact hn
    have hlen : pre.length < (rowL g.rowPtr g.colInd i).length := by rw [hsp]; simp
    have hv := hm.values
    rw [rd_of_lt hnc, ok_bind, sqDist_eq (by rw [hD _ (List.getElem_mem _), hD _ (List.getElem_mem _)]), ok_bind]
    simp only
    rw [wr_of_lt (by rw [h1, h2]; omega), ok_bind, Ok_pure]
    have hc : ∀ k, CouplingAt g .minDistance i k n (Num.div (Num.ofNat 1) (dist2 g.centers[i] g.centers[n])) := by
      intro k
      exact ⟨_, _, by simp [hic], by simp [hnc], rfl⟩
    refine ⟨by simp [h1]; omega, by simp [h2], ?_, ?_, ?_, ?_⟩
    · intro j m hj
      simp only
      rw [concat_getElem?] at hj
      rcases hj with hj | ⟨hj, rfl⟩
      · have hjl := (List.getElem?_eq_some_iff.1 hj).1
        rw [List.getElem?_set, if_neg (by omega)]
        exact h3 j m hj
      · subst hj
        refine ⟨_, ?_, hc _⟩
        rw [List.getElem?_set, if_pos h1, if_pos (by omega)]
    · intro k hk
      simp only
      rw [List.getElem?_set, if_neg (by rw [h1]; exact fun e => hk pre.length (by simp) e.symm)]
      exact h4 k (fun j hj => hk j (by simp; omega))
    · intro j m w hj hw
      simp only
      rw [concat_getElem?] at hj
      rcases hj with hj | ⟨hj, rfl⟩
      · have := h5 j m w hj hw
        split
        · rename_i hlt
          exact hW.le_trans this (hW.asymm hlt)
        · exact this
      · rw [hw.unique (hc _)]
        split
        · exact hW.irrefl _
        · rename_i hlt; simpa using hlt
    · simp only
      split
      · exact Or.inl ⟨pre.length, n, by simp, hc _⟩
      · rcases h6 with ⟨j, m, hj, hw⟩ | h6
        · exact Or.inl ⟨j, m, concat_getElem?.2 (Or.inl hj), hw⟩
        · exact Or.inr h6
  · rintro r ⟨h1, h2, h3, h4, h5⟩
    rw [Ok_pure]
    refine ⟨h1, ?_, ?_, ?_, ?_⟩
    · intro k n hf
      obtain ⟨j, rfl, hj⟩ := (faceAt_iff h hi hb).1 hf
      exact h2 j n hj
    · intro k hk
      refine h3 k (fun j hj e => hk (rowL g.rowPtr g.colInd i)[j] ((faceAt_iff h hi hb).2 ⟨j, e, by simp [hj]⟩))
    · rintro n w ⟨k, hf, hw⟩
      obtain ⟨j, rfl, hj⟩ := (faceAt_iff h hi hb).1 hf
      exact h4 j n w hj hw
    · rcases h5 with ⟨j, n, hj, hw⟩ | h5
      · exact Or.inl ⟨n, b + j, (faceAt_iff h hi hb).2 ⟨j, rfl, hj⟩, hw⟩
      · exact Or.inr h5

/-- references known for the cells processed so far -/
structure TagData (g : Graph W) (coupling : Coupling) (pre : List Nat) (s : TagSt W) : Prop where
  len : s.maxW.length = g.nbC
  alt : s.alt.length = (altInit g coupling).length
  max : ∀ i ∈ pre, ∃ m, s.maxW[i]? = some m ∧ StrongestOf g coupling i m
  dist : coupling = .minDistance → ∀ i ∈ pre, ∀ k n, FaceAt g i k n → ∃ w, s.alt[k]? = some w ∧ CouplingAt g coupling i k n w

theorem TagData.push {g : Graph W} (h : ValidCRS g.nbC g.rowPtr g.colInd) {coupling : Coupling} {pre : List Nat} {s s' : TagSt W}
    (hd : TagData g coupling pre s) {i : Nat} (hi : i < g.nbC) {m : W} (hmx : s'.maxW = s.maxW.set i m)
    (hm : StrongestOf g coupling i m) (ha : s'.alt.length = s.alt.length)
    (h1 : coupling = .minDistance → ∀ k n, FaceAt g i k n → ∃ w, s'.alt[k]? = some w ∧ CouplingAt g coupling i k n w)
    (h2 : coupling = .minDistance → ∀ k, (∀ n, ¬ FaceAt g i k n) → s'.alt[k]? = s.alt[k]?) :
    TagData g coupling (pre ++ [i]) s' := by
  refine ⟨by rw [hmx]; simp [hd.len], by rw [ha, hd.alt], ?_, ?_⟩
  · intro j hj
    rw [hmx, List.getElem?_set]
    by_cases hij : i = j
    · subst hij
      exact ⟨m, by simp [hd.len, hi], hm⟩
    · rw [if_neg hij]
      refine hd.max j ?_
      rcases List.mem_append.1 hj with hj | hj
      · exact hj
      · simp at hj; exact absurd hj.symm hij
  · intro hc j hj k n hf
    by_cases hij : i = j
    · subst hij
      exact h1 hc k n hf
    · rw [h2 hc k (fun n' hf' => hij (hf'.same h hf))]
      refine hd.dist hc j ?_ k n hf
      rcases List.mem_append.1 hj with hj | hj
      · exact hj
      · simp at hj; exact absurd hj.symm hij

theorem strongest_of_list {g : Graph W} (h : ValidCRS g.nbC g.rowPtr g.colInd) (hv : g.values.length = g.colInd.length)
    {i : Nat} (hi : i < g.nbC) {m : W} (hmem : m ∈ rowL g.rowPtr g.values i)
    (hle : ∀ y ∈ rowL g.rowPtr g.values i, Num.lt m y = false) : StrongestOf g .maxWeight i m := by
  obtain ⟨b, e, hb, he, hbe, hec, h5⟩ := h.row hi g.values hv
  unfold rowL at hmem hle
  rw [h5] at hmem hle
  simp only [mem_drop_take] at hmem hle
  refine ⟨?_, Or.inl ?_⟩
  · rintro n w ⟨k, ⟨b', e', hb', he', h3, h4, h6⟩, hw⟩
    rw [hb] at hb'; cases hb'
    rw [he] at he'; cases he'
    exact hle w ⟨k, h3, h4, hw⟩
  · obtain ⟨k, h1, h2, h3⟩ := hmem
    have hk : k < g.colInd.length := by omega
    exact ⟨g.colInd[k], k, ⟨b, e, hb, he, h1, h2, by simp [hk]⟩, h3⟩

theorem strongest_of_range {g : Graph W} (hns : NoSelfLoop g.rowPtr g.colInd) {i : Nat} {mn mx : W}
    (h : WeightRange g i mn mx) : StrongestOf g .maxWeight i mx := by
  obtain ⟨_, _, _, h1, h2, _⟩ := h
  refine ⟨?_, ?_⟩
  · rintro n w ⟨k, hf, hw⟩
    have hne : n ≠ i := fun e => hns i (e ▸ hf.adj)
    obtain ⟨b, e, hb, he, h3, h4, h5⟩ := hf
    exact h1 w ⟨b, e, k, n, hb, he, h3, h4, h5, hne, hw⟩
  · rcases h2 with h2 | ⟨b, e, k, n, hb, he, h3, h4, h5, _, hw⟩
    · exact Or.inr h2
    · exact Or.inl ⟨n, k, ⟨b, e, hb, he, h3, h4, h5⟩, hw⟩

theorem tagOne_data (hW : LawfulLt W) {g : Graph W} {prio : List W} {coupling : Coupling} {thr : W}
    (hI : LinesInput g prio coupling thr) (hns : NoSelfLoop g.rowPtr g.colInd) {pre : List Nat} {i : Nat}
    (hi : i ∈ g.compliant) {s : TagSt W} (h : TagData g coupling pre s) :
    Ok (tagOne g prio coupling 0 thr s i) (TagData g coupling (pre ++ [i])) := by
  have hin := hI.compliant i hi
  have hprio : rd prio i = .ok (prioAt prio i) := rd_prioAt (by rw [hI.prio]; exact hin)
  have hdist : coupling = .minDistance → ∀ (t : List (Nat × W)), Ok (distWeights g i s.alt) (fun r =>
      Ok (wr s.maxW i r.2) (fun m => TagData g coupling (pre ++ [i]) ⟨r.1, m, t⟩)) := by
    intro hc t
    have ha' : s.alt.length = g.values.length := by rw [h.alt, hc]; simp [altInit]
    refine Ok.mono (distWeights_exact hW hI.crs hI.sizes hin ha') ?_
    rintro r ⟨h1, h2, h3, h4⟩
    rw [wr_of_lt (by rw [h.len]; exact hin)]
    subst hc
    exact h.push hI.crs hin (s' := ⟨r.1, s.maxW.set i r.2, t⟩) rfl h4 (by simp only; rw [h1, ha']) (fun _ => h2) (fun _ => h3)
  unfold tagOne
  split
  · rename_i hneg
    unfold tagAll
    cases coupling with
    | unknown => exact absurd rfl hI.known
    | maxWeight =>
      simp only
      obtain ⟨j, hj⟩ := hI.isolated hneg rfl i hi
      obtain ⟨hw, hlen⟩ := weights_eq hI.crs hI.sizes.values hin
      rw [hprio, ok_bind, hw, ok_bind]
      have hne : rowL g.rowPtr g.values i ≠ [] := by
        intro h0
        have := (hI.crs.mem_rowL hin).2 hj
        rw [h0] at hlen
        simp only [List.length_nil] at hlen
        rw [List.length_eq_zero_iff.1 hlen.symm] at this
        simp at this
      refine Ok.bind (maxWeightM_ok hW hne) ?_
      rintro m ⟨h1, h2⟩
      rw [wr_of_lt (by rw [h.len]; exact hin), ok_bind, Ok_pure]
      exact h.push hI.crs hin rfl (strongest_of_list hI.crs hI.sizes.values hin h1 h2) rfl (by simp) (by simp)
    | minDistance =>
      simp only
      rw [hprio, ok_bind]
      refine Ok.bind (hdist rfl (pinsert (i, prioAt prio i) s.tagged)) ?_
      intro r hr
      exact Ok.bind hr (fun m hm => Ok_pure.2 hm)
  · rename_i hneg
    unfold tagByRatio
    obtain ⟨hw, hlen⟩ := weights_eq hI.crs hI.sizes.values hin
    rw [neighs_eq hI.crs hin, ok_bind, hw, ok_bind]
    refine Ok.bind (P := fun _ => True) ?_ ?_
    · unfold tagIf keepsLayer
      split
      · simp [hprio, pure, Except.pure]
      · trivial
    · intro t _
      unfold tagWeights
      cases coupling with
      | unknown => exact absurd rfl hI.known
      | maxWeight =>
        simp only
        rw [wr_of_lt (by rw [h.len]; exact hin), ok_bind, Ok_pure]
        exact h.push hI.crs hin rfl (strongest_of_range hns (mmOf_range hW hI.crs hI.sizes.values hin)) rfl (by simp) (by simp)
      | minDistance =>
        simp only
        refine Ok.bind (hdist rfl t) ?_
        intro r hr
        exact Ok.bind hr (fun m hm => Ok_pure.2 hm)

/-- references after the tagging -/
theorem tagCells_data (hW : LawfulLt W) {g : Graph W} (hh : Hash) {prio : List W} {coupling : Coupling} {thr : W}
    (hI : LinesInput g prio coupling thr) (hns : NoSelfLoop g.rowPtr g.colInd) {maxW : List W} (hmw : maxW.length = g.nbC) :
    Ok (g.tagCells hh prio coupling 0 thr maxW (List.replicate g.nbC false)) (fun r =>
      (∀ i ∈ g.compliant, ∃ m, r.2.1[i]? = some m ∧ StrongestOf g coupling i m) ∧
      ∀ i ∈ g.compliant, ∀ k n, FaceAt g i k n →
        ∃ w, (refWeights g coupling r.1)[k]? = some w ∧ CouplingAt g coupling i k n w) := by
  obtain ⟨r, hr, _⟩ := (tagCells_ok hh hI hmw).eq
  rw [hr]
  unfold Graph.tagCells at hr
  rw [bind_ok_iff] at hr
  obtain ⟨s, hs, hr⟩ := hr
  rw [bind_ok_iff] at hr
  obtain ⟨b, _, hr⟩ := hr
  cases hr
  have hd : TagData g coupling (hh.ord 6 g.compliant.elems) s := by
    refine Ok.elim (Ok.foldlM_prefix (I := TagData g coupling) ⟨hmw, rfl, by simp, by simp⟩ ?_) hs
    intro pre i post s hsp hs
    refine tagOne_data hW hI hns ?_ hs
    have : i ∈ hh.ord 6 g.compliant.elems := by rw [hsp]; simp
    exact NSet.mem_elems.1 ((hh.perm 6 _).mem_iff.1 this)
  have hmem : ∀ i ∈ g.compliant, i ∈ hh.ord 6 g.compliant.elems := fun i hi =>
    (hh.perm 6 _).mem_iff.2 (NSet.mem_elems.2 hi)
  refine ⟨fun i hi => hd.max i (hmem i hi), ?_⟩
  intro i hi k n hf
  simp only
  cases coupling with
  | unknown => exact absurd rfl hI.known
  | maxWeight =>
    obtain ⟨b, e, hb, he, h3, h4, h5⟩ := hf
    have hk : k < g.values.length := by
      rw [hI.sizes.values]; exact (List.getElem?_eq_some_iff.1 h5).1
    exact ⟨g.values[k], by simp [refWeights, hk], by simp [CouplingAt, hk]⟩
  | minDistance => exact hd.dist rfl i (hmem i hi) k n hf

end CoMMA
