import Verif.Spec.Lines
import Verif.Lemmas.AspectRatio
/-! # Tagging of anisotropic cells -/

set_option linter.unusedSectionVars false

namespace CoMMA

variable {W : Type} [Num W]

/-- priority of a cell -/
def prioAt (prio : List W) (i : Nat) : W := (prio[i]?).getD Num.lmin

theorem rd_prioAt {prio : List W} {i : Nat} (h : i < prio.length) : rd prio i = .ok (prioAt prio i) := by
  rw [rd_of_lt h]; simp [prioAt, h]

/-- extreme weights of a cell, as computed -/
def mmOf (g : Graph W) (i : Nat) : W × W × Int :=
  minMaxWeights i ((rowL g.rowPtr g.colInd i).zip (rowL g.rowPtr g.values i))

/-- outcome of the test of a compliant cell -/
def isTagged (g : Graph W) (thr : W) (i : Nat) : Bool :=
  Num.lt thr (Num.ofNat 0) || Num.le thr (g.weightsRatio (mmOf g i).1 (mmOf g i).2.1)

/-- outcome of the test of layers -/
def keepsL (g : Graph W) (p i : Nat) : Bool :=
  if p = 2 then (decide (0 < (g.nBnd[i]?).getD 0) && decide ((mmOf g i).2.2 = 3)) || decide ((mmOf g i).2.2 = 4) else true

/-- outcome of the test of a compliant cell, with the test of layers -/
def isTaggedL (g : Graph W) (p : Nat) (thr : W) (i : Nat) : Bool :=
  Num.lt thr (Num.ofNat 0) || (Num.le thr (g.weightsRatio (mmOf g i).1 (mmOf g i).2.1) && keepsL g p i)

theorem isTaggedL_zero (g : Graph W) (thr : W) : isTaggedL g 0 thr = isTagged g thr := by
  funext i; simp [isTaggedL, isTagged, keepsL]

theorem row_offset {g : Graph W} (h : ValidCRS g.nbC g.rowPtr g.colInd) {i : Nat} (hi : i < g.nbC) :
    ∃ b, rd g.rowPtr i = .ok b ∧ b + (rowL g.rowPtr g.colInd i).length ≤ g.colInd.length := by
  obtain ⟨b, e, hb, he, hbe, hec, h5⟩ := h.row hi g.colInd rfl
  refine ⟨b, rd_ok.2 hb, ?_⟩
  have : (rowL g.rowPtr g.colInd i).length = e - b := by
    unfold rowL; rw [h5]; simp; omega
  omega

theorem distWeights_ok {g : Graph W} (h : ValidCRS g.nbC g.rowPtr g.colInd) (hm : MeshSizes g) {i : Nat}
    (hi : i < g.nbC) {alt : List W} (ha : alt.length = g.values.length) :
    Ok (distWeights g i alt) (fun r => r.1.length = g.values.length) := by
  unfold distWeights
  obtain ⟨b, hb, hbl⟩ := row_offset h hi
  obtain ⟨D, hD⟩ := hm.coords
  rw [hb, ok_bind, neighs_eq h hi, ok_bind, rd_of_lt (by rw [hm.centers]; exact hi), ok_bind]
  refine Ok.bind (P := fun (r : Nat × List W × W) => r.2.1.length = g.values.length) ?_ (fun r hr => Ok_pure.2 hr)
  refine Ok.mono (Ok.foldlM_prefix (I := fun pre (s : Nat × List W × W) => s.1 = b + pre.length ∧ s.2.1.length = g.values.length) ⟨rfl, ha⟩ ?_)
    (fun r hr => hr.2)
  rintro pre n post s hsp ⟨h1, h2⟩
  have hn : n < g.nbC := h.rowL_lt hi (by rw [hsp]; simp)
  have hlen : pre.length < (rowL g.rowPtr g.colInd i).length := by rw [hsp]; simp
  rw [rd_of_lt (show n < g.centers.length by rw [hm.centers]; exact hn), ok_bind]
  refine Ok.bind (sqDist_ok (Nat.le_of_eq (by rw [hD _ (List.getElem_mem _), hD _ (List.getElem_mem _)]))) ?_
  intro d _
  have hv := hm.values
  simp only
  rw [wr_of_lt (by rw [h1, h2]; omega), ok_bind, Ok_pure]
  exact ⟨by simp [h1]; omega, by simp [h2]⟩

/-- invariant of the loop over the compliant cells -/
structure TagInv (g : Graph W) (p : Nat) (prio : List W) (coupling : Coupling) (thr : W) (pre : List Nat) (s : TagSt W) : Prop where
  alt : s.alt.length = (altInit g coupling).length
  maxW : s.maxW.length = g.nbC
  tagged : s.tagged = psetOf (prioAt prio) (pre.filter (isTaggedL g p thr))

theorem tagWeights_ok {g : Graph W} {prio : List W} {coupling : Coupling} {thr : W} (hI : LinesInput g prio coupling thr)
    {i : Nat} (hi : i < g.nbC) (mx : W) {s : TagSt W} (ha : s.alt.length = (altInit g coupling).length)
    (hw : s.maxW.length = g.nbC) :
    Ok (tagWeights g coupling i mx s) (fun s' => s'.alt.length = (altInit g coupling).length ∧ s'.maxW.length = g.nbC ∧
      s'.tagged = s.tagged) := by
  unfold tagWeights
  cases coupling with
  | unknown => exact absurd rfl hI.known
  | maxWeight =>
    simp only
    rw [wr_of_lt (by rw [hw]; exact hi), ok_bind, Ok_pure]
    exact ⟨ha, by simp [hw], rfl⟩
  | minDistance =>
    simp only
    have ha' : s.alt.length = g.values.length := by rw [ha]; simp [altInit]
    refine Ok.bind (distWeights_ok hI.crs hI.sizes hi ha') ?_
    intro r hr
    rw [wr_of_lt (by rw [hw]; exact hi), ok_bind, Ok_pure]
    exact ⟨by rw [hr]; simp [altInit], by simp [hw], rfl⟩

theorem psetOf_filter_append (w : Nat → W) (q : Nat → Bool) (l : List Nat) (i : Nat) :
    psetOf w ((l ++ [i]).filter q) = if q i then pinsert (i, w i) (psetOf w (l.filter q)) else psetOf w (l.filter q) := by
  rw [List.filter_append]
  cases h : q i with
  | true => rw [List.filter_singleton, h]; simp [psetOf_append]
  | false => rw [List.filter_singleton, h]; simp

theorem tagOne_ok {g : Graph W} {p : Nat} {prio : List W} {coupling : Coupling} {thr : W} (hI : LinesInput g prio coupling thr)
    {pre : List Nat} {i : Nat} (hi : i ∈ g.compliant) {s : TagSt W} (h : TagInv g p prio coupling thr pre s) :
    Ok (tagOne g prio coupling p thr s i) (TagInv g p prio coupling thr (pre ++ [i])) := by
  have hin := hI.compliant i hi
  have hprio : rd prio i = .ok (prioAt prio i) := rd_prioAt (by rw [hI.prio]; exact hin)
  unfold tagOne
  split
  · rename_i hneg
    have htag : isTaggedL g p thr i = true := by unfold isTaggedL; rw [hneg]; rfl
    unfold tagAll
    cases coupling with
    | unknown => exact absurd rfl hI.known
    | maxWeight =>
      simp only
      obtain ⟨j, hj⟩ := hI.isolated hneg rfl i hi
      obtain ⟨hw, hlen⟩ := weights_eq hI.crs hI.sizes.values hin
      rw [hprio, ok_bind, hw, ok_bind]
      have hne : rowL g.rowPtr g.values i ≠ [] := by
        intro h0
        have := (hI.crs.mem_rowL hin).2 hj
        rw [h0] at hlen
        simp only [List.length_nil] at hlen
        rw [List.length_eq_zero_iff.1 hlen.symm] at this
        simp at this
      obtain ⟨x, xs, hx⟩ := List.exists_cons_of_ne_nil hne
      rw [hx]
      simp only [maxWeightM, ok_bind]
      rw [wr_of_lt (by rw [h.maxW]; exact hin), ok_bind, Ok_pure]
      refine ⟨h.alt, by simp [h.maxW], ?_⟩
      rw [psetOf_filter_append, htag, if_pos rfl, ← h.tagged]
    | minDistance =>
      simp only
      rw [hprio, ok_bind]
      have ha' : s.alt.length = g.values.length := by rw [h.alt]; simp [altInit]
      refine Ok.bind (distWeights_ok hI.crs hI.sizes hin ha') ?_
      intro r hr
      rw [wr_of_lt (by rw [h.maxW]; exact hin), ok_bind, Ok_pure]
      refine ⟨by rw [hr]; simp [altInit], by simp [h.maxW], ?_⟩
      rw [psetOf_filter_append, htag, if_pos rfl, ← h.tagged]
  · rename_i hneg
    unfold tagByRatio
    obtain ⟨hw, hlen⟩ := weights_eq hI.crs hI.sizes.values hin
    rw [neighs_eq hI.crs hin, ok_bind, hw, ok_bind]
    have hte : isTaggedL g p thr i = (Num.le thr (g.weightsRatio (mmOf g i).1 (mmOf g i).2.1) && keepsL g p i) := by
      unfold isTaggedL; simp [hneg]
    have ht : tagIf g prio p thr i (mmOf g i) s.tagged = .ok (psetOf (prioAt prio) ((pre ++ [i]).filter (isTaggedL g p thr))) := by
      have hk : keepsLayer g p i (mmOf g i).2.2 = .ok (keepsL g p i) := by
        unfold keepsLayer keepsL
        split
        · rw [rd_of_lt (by rw [hI.sizes.bnd]; exact hin), ok_bind]
          simp [pure, Except.pure, hI.sizes.bnd, hin]
        · rfl
      unfold tagIf
      rw [psetOf_filter_append, hte, ← h.tagged, hk]
      split
      · rename_i hle
        rw [ok_bind, hle, Bool.true_and]
        split
        · simp [hprio, pure, Except.pure]
        · rfl
      · rename_i hle
        have hle : Num.le thr (g.weightsRatio (mmOf g i).1 (mmOf g i).2.1) = false := by simpa using hle
        rw [hle, Bool.false_and]; rfl
    rw [show minMaxWeights i ((rowL g.rowPtr g.colInd i).zip (rowL g.rowPtr g.values i)) = mmOf g i from rfl, ht, ok_bind]
    refine Ok.mono (tagWeights_ok hI hin _ (s := { s with tagged := _ }) h.alt h.maxW) ?_
    rintro s' ⟨h1, h2, h3⟩
    exact ⟨h1, h2, h3⟩

/-- result of the tagging in `build_anisotropic_lines` -/
theorem tagCells_okL {g : Graph W} (hh : Hash) (p : Nat) {prio : List W} {coupling : Coupling} {thr : W}
    (hI : LinesInput g prio coupling thr) {maxW : List W} (hmw : maxW.length = g.nbC) :
    Ok (g.tagCells hh prio coupling p thr maxW (List.replicate g.nbC false)) (fun r =>
      r.1.length = (altInit g coupling).length ∧ r.2.1.length = g.nbC ∧ r.2.2.1.length = g.nbC ∧
      (∀ i : Nat, r.2.2.1[i]? = some true ↔ i ∈ r.2.2.2) ∧
      r.2.2.2 = firsts (psetOf (prioAt prio) ((hh.ord 6 g.compliant.elems).filter (isTaggedL g p thr)))) := by
  unfold Graph.tagCells
  refine Ok.bind (P := TagInv g p prio coupling thr (hh.ord 6 g.compliant.elems)) ?_ ?_
  · refine Ok.foldlM_prefix ⟨rfl, hmw, by simp [psetOf]⟩ ?_
    intro pre i post s hsp hs
    refine tagOne_ok hI ?_ hs
    have : i ∈ hh.ord 6 g.compliant.elems := by rw [hsp]; simp
    exact NSet.mem_elems.1 ((hh.perm 6 _).mem_iff.1 this)
  · intro s hs
    have hlt : ∀ i ∈ firsts s.tagged, i < g.nbC := by
      intro i hi
      rw [hs.tagged, mem_firsts_psetOf, List.mem_filter] at hi
      exact hI.compliant i (NSet.mem_elems.1 ((hh.perm 6 _).mem_iff.1 hi.1))
    refine Ok.bind (P := fun (b : List Bool) => b.length = g.nbC ∧ ∀ i : Nat, b[i]? = some true ↔ i ∈ firsts s.tagged) ?_ ?_
    · refine Ok.mono (Ok.foldlM_prefix (I := fun pre (b : List Bool) => b.length = g.nbC ∧
        ∀ i : Nat, b[i]? = some true ↔ i ∈ pre) ?_ ?_) (fun b hb => hb)
      · refine ⟨by simp, ?_⟩
        intro i
        rw [List.getElem?_replicate]
        simp
      · rintro pre x post b hsp ⟨h1, h2⟩
        have hx := hlt x (by rw [hsp]; simp)
        rw [wr_of_lt (by rw [h1]; exact hx)]
        refine ⟨by simp [h1], ?_⟩
        intro i
        rw [List.getElem?_set]
        by_cases hxi : x = i
        · subst hxi; simp [h1, hx]
        · rw [if_neg hxi, h2]; simp [Ne.symm hxi]
    · rintro b ⟨h1, h2⟩
      rw [Ok_pure]
      exact ⟨hs.alt, hs.maxW, h1, h2, by rw [← hs.tagged]⟩

theorem tagCells_ok {g : Graph W} (hh : Hash) {prio : List W} {coupling : Coupling} {thr : W}
    (hI : LinesInput g prio coupling thr) {maxW : List W} (hmw : maxW.length = g.nbC) :
    Ok (g.tagCells hh prio coupling 0 thr maxW (List.replicate g.nbC false)) (fun r =>
      r.1.length = (altInit g coupling).length ∧ r.2.1.length = g.nbC ∧ r.2.2.1.length = g.nbC ∧
      (∀ i : Nat, r.2.2.1[i]? = some true ↔ i ∈ r.2.2.2) ∧
      r.2.2.2 = firsts (psetOf (prioAt prio) ((hh.ord 6 g.compliant.elems).filter (isTagged g thr)))) := by
  have := tagCells_okL hh 0 hI hmw
  rwa [isTaggedL_zero] at this

end CoMMA
