import Verif.Lemmas.HashFree
import Verif.Lemmas.TagExact
import Verif.Lemmas.AnisoOutcome
/-! # The tagged cells and the lines do not depend on the iteration order -/

set_option linter.unusedSectionVars false

namespace CoMMA

variable {W : Type} [Num W]

/-- `ds` written from position `b` on -/
def setFrom {α : Type} : List α → Nat → List α → List α
  | v, _, [] => v
  | v, b, d :: r => setFrom (v.set b d) (b + 1) r

theorem setFrom_length {α : Type} (ds : List α) : ∀ (v : List α) (b : Nat), (setFrom v b ds).length = v.length := by
  induction ds with
  | nil => intro v b; rfl
  | cons d r ih => intro v b; rw [setFrom, ih]; simp

theorem setFrom_getElem? {α : Type} (ds : List α) : ∀ (v : List α) (b k : Nat), b + ds.length ≤ v.length →
    (setFrom v b ds)[k]? = if b ≤ k ∧ k < b + ds.length then ds[k - b]? else v[k]? := by
  induction ds with
  | nil => intro v b k _; rw [setFrom, if_neg (by simp)]
  | cons d r ih =>
    intro v b k h
    simp only [List.length_cons] at h
    rw [setFrom, ih _ _ _ (by simp; omega)]
    by_cases h1 : b + 1 ≤ k ∧ k < b + 1 + r.length
    · rw [if_pos h1, if_pos (by simp; omega), show k - b = (k - (b + 1)) + 1 by omega, List.getElem?_cons_succ]
    · rw [if_neg h1, List.getElem?_set]
      by_cases hk : b = k
      · subst hk
        rw [if_pos rfl, if_pos (by omega), if_pos (by simp)]
        simp
      · rw [if_neg hk, if_neg (by simp; omega)]

theorem setFrom_comm {α : Type} {v ds ds' : List α} {b b' : Nat} (h1 : b + ds.length ≤ v.length)
    (h2 : b' + ds'.length ≤ v.length) (h : ds = [] ∨ ds' = [] ∨ b + ds.length ≤ b' ∨ b' + ds'.length ≤ b) :
    setFrom (setFrom v b ds) b' ds' = setFrom (setFrom v b' ds') b ds := by
  rcases h with rfl | rfl | h
  · rfl
  · rfl
  · apply List.ext_getElem?
    intro k
    rw [setFrom_getElem? _ _ _ _ (by rw [setFrom_length]; exact h2), setFrom_getElem? _ _ _ _ h1,
      setFrom_getElem? _ _ _ _ (by rw [setFrom_length]; exact h1), setFrom_getElem? _ _ _ _ h2]
    by_cases hk : b ≤ k ∧ k < b + ds.length
    · rw [if_neg (by omega), if_pos hk, if_pos hk]
    · rw [if_neg hk, if_neg hk]

theorem distWeights_form {g : Graph W} (h : ValidCRS g.nbC g.rowPtr g.colInd) (hm : MeshSizes g) {i : Nat} (hi : i < g.nbC)
    {b : Nat} (hb : rd g.rowPtr i = .ok b) (hbl : b + (rowL g.rowPtr g.colInd i).length ≤ g.colInd.length) :
    ∃ ds mx, ds.length = (rowL g.rowPtr g.colInd i).length ∧ ∀ alt : List W, alt.length = g.values.length →
      distWeights g i alt = .ok (setFrom alt b ds, mx) := by
  obtain ⟨D, hD⟩ := hm.coords
  have hic : i < g.centers.length := by rw [hm.centers]; exact hi
  have key : ∀ row : List Nat, (∀ n ∈ row, n < g.nbC) → ∀ (b : Nat) (m : W), ∃ ds mx, ds.length = row.length ∧
      ∀ alt : List W, b + row.length ≤ alt.length → row.foldlM (fun (s : Nat × List W × W) n => do
        let cn ← rd g.centers n
        let d ← sqDist g.centers[i] cn
        let dist := Num.div (Num.ofNat 1) d
        let alt ← wr s.2.1 s.1 dist
        pure (s.1 + 1, alt, if Num.lt s.2.2 dist then dist else s.2.2)) (b, alt, m) = .ok (b + row.length, setFrom alt b ds, mx) := by
    intro row
    induction row with
    | nil => intro _ b m; exact ⟨[], m, rfl, fun alt _ => rfl⟩
    | cons n r ih =>
      intro hr b m
      have hn : n < g.centers.length := by rw [hm.centers]; exact hr n (by simp)
      obtain ⟨ds, mx, h1, h2⟩ := ih (fun x hx => hr x (by simp [hx])) (b + 1)
        (if Num.lt m (Num.div (Num.ofNat 1) (dist2 g.centers[i] g.centers[n])) then
          Num.div (Num.ofNat 1) (dist2 g.centers[i] g.centers[n]) else m)
      refine ⟨Num.div (Num.ofNat 1) (dist2 g.centers[i] g.centers[n]) :: ds, mx, by simp [h1], ?_⟩
      intro alt ha
      simp only [List.length_cons] at ha
      rw [List.foldlM_cons, rd_of_lt hn, ok_bind, sqDist_eq (by rw [hD _ (List.getElem_mem _), hD _ (List.getElem_mem _)]), ok_bind]
      simp only
      rw [wr_of_lt (by omega), ok_bind]
      show _ = _
      have := h2 (alt.set b (Num.div (Num.ofNat 1) (dist2 g.centers[i] g.centers[n]))) (by simp; omega)
      rw [show (b + (n :: r).length) = b + 1 + r.length by simp; omega, setFrom]
      exact this
  obtain ⟨ds, mx, h1, h2⟩ := key (rowL g.rowPtr g.colInd i) (fun n hn => h.rowL_lt hi hn) b (Num.ofNat 0)
  refine ⟨ds, mx, h1, ?_⟩
  intro alt ha
  unfold distWeights
  rw [hb, ok_bind, neighs_eq h hi, ok_bind, rd_of_lt hic, ok_bind, h2 alt (by rw [ha, hm.values]; exact hbl)]
  rfl

/-- insertion of a tagged cell with its priority, if any -/
def tagPut (t : Option W) (i : Nat) (l : List (Nat × W)) : List (Nat × W) :=
  match t with
  | none => l
  | some w => pinsert (i, w) l

/-- what the treatment of one cell does to any state -/
structure TagForm (g : Graph W) (coupling : Coupling) (i : Nat) (f : TagSt W → M (TagSt W)) (b : Nat) (ds : List W) (mx : W) (t : Option W) :
    Prop where
  off : rd g.rowPtr i = .ok b
  vals : ds = [] ∨ (ds.length = (rowL g.rowPtr g.colInd i).length ∧ b + ds.length ≤ (altInit g coupling).length)
  eq : ∀ s : TagSt W, s.alt.length = (altInit g coupling).length → s.maxW.length = g.nbC →
    f s = .ok ⟨setFrom s.alt b ds, s.maxW.set i mx, tagPut t i s.tagged⟩

theorem tagOne_form {g : Graph W} {prio : List W} {coupling : Coupling} {p : Nat} {thr : W} (hI : LinesInput g prio coupling thr)
    {i : Nat} (hi : i ∈ g.compliant) :
    ∃ b ds mx t, TagForm g coupling i (fun s => tagOne g prio coupling p thr s i) b ds mx t := by
  have hin := hI.compliant i hi
  have hprio : rd prio i = .ok (prioAt prio i) := rd_prioAt (by rw [hI.prio]; exact hin)
  obtain ⟨b, hb, hbl⟩ := row_offset hI.crs hin
  obtain ⟨ds, mx, hds, hdw⟩ := distWeights_form hI.crs hI.sizes hin hb hbl
  obtain ⟨hw, hlen⟩ := weights_eq hI.crs hI.sizes.values hin
  have hv := hI.sizes.values
  by_cases hneg : Num.lt thr (Num.ofNat 0) = true
  · cases coupling with
    | unknown => exact absurd rfl hI.known
    | maxWeight =>
      obtain ⟨j, hj⟩ := hI.isolated hneg rfl i hi
      have hne : rowL g.rowPtr g.values i ≠ [] := by
        intro h0
        have := (hI.crs.mem_rowL hin).2 hj
        rw [h0] at hlen
        simp only [List.length_nil] at hlen
        rw [List.length_eq_zero_iff.1 hlen.symm] at this
        simp at this
      obtain ⟨x, xs, hx⟩ := List.exists_cons_of_ne_nil hne
      refine ⟨b, [], xs.foldl (fun m y => if Num.lt m y then y else m) x, some (prioAt prio i), hb, Or.inl rfl, ?_⟩
      intro s ha hm
      show tagOne _ _ _ _ _ _ _ = _
      unfold tagOne
      rw [if_pos hneg]
      unfold tagAll
      simp only
      rw [hprio, ok_bind, hw, ok_bind, hx]
      simp only [maxWeightM, ok_bind]
      rw [wr_of_lt (by rw [hm]; exact hin), ok_bind]
      rfl
    | minDistance =>
      refine ⟨b, ds, mx, some (prioAt prio i), hb, Or.inr ⟨hds, by simp [altInit]; omega⟩, ?_⟩
      intro s ha hm
      show tagOne _ _ _ _ _ _ _ = _
      unfold tagOne
      rw [if_pos hneg]
      unfold tagAll
      simp only
      rw [hprio, ok_bind, hdw _ (by rw [ha]; simp [altInit]), ok_bind, wr_of_lt (by rw [hm]; exact hin), ok_bind]
      rfl
  · obtain ⟨t, ht⟩ : ∃ t : Option W, ∀ l, tagIf g prio p thr i (mmOf g i) l = .ok (tagPut t i l) := by
      have hk : keepsLayer g p i (mmOf g i).2.2 = .ok (keepsL g p i) := by
        unfold keepsLayer keepsL
        split
        · rw [rd_of_lt (by rw [hI.sizes.bnd]; exact hin), ok_bind]
          simp [pure, Except.pure, hI.sizes.bnd, hin]
        · rfl
      by_cases hle : Num.le thr (g.weightsRatio (mmOf g i).1 (mmOf g i).2.1) = true
      · by_cases hke : keepsL g p i = true
        · refine ⟨some (prioAt prio i), ?_⟩
          intro l
          unfold tagIf
          rw [if_pos hle, hk, ok_bind, if_pos hke, hprio, ok_bind]; rfl
        · refine ⟨none, ?_⟩
          intro l
          unfold tagIf
          rw [if_pos hle, hk, ok_bind, if_neg hke]; rfl
      · refine ⟨none, ?_⟩
        intro l
        unfold tagIf
        rw [if_neg hle]; rfl
    have hone : ∀ s, tagOne g prio coupling p thr s i = tagWeights g coupling i (mmOf g i).2.1
        { s with tagged := tagPut t i s.tagged } := by
      intro s
      unfold tagOne
      rw [if_neg hneg]
      unfold tagByRatio
      rw [neighs_eq hI.crs hin, ok_bind, hw, ok_bind]
      rw [show minMaxWeights i ((rowL g.rowPtr g.colInd i).zip (rowL g.rowPtr g.values i)) = mmOf g i from rfl, ht, ok_bind]
    cases coupling with
    | unknown => exact absurd rfl hI.known
    | maxWeight =>
      refine ⟨b, [], (mmOf g i).2.1, t, hb, Or.inl rfl, ?_⟩
      intro s ha hm
      show tagOne _ _ _ _ _ _ _ = _
      rw [hone]
      unfold tagWeights
      simp only
      rw [wr_of_lt (by rw [hm]; exact hin), ok_bind]
      rfl
    | minDistance =>
      refine ⟨b, ds, mx, t, hb, Or.inr ⟨hds, by simp [altInit]; omega⟩, ?_⟩
      intro s ha hm
      show tagOne _ _ _ _ _ _ _ = _
      rw [hone]
      unfold tagWeights
      simp only
      rw [hdw _ (by rw [ha]; simp [altInit]), ok_bind, wr_of_lt (by rw [hm]; exact hin), ok_bind]
      rfl

theorem rows_apart {g : Graph W} (h : ValidCRS g.nbC g.rowPtr g.colInd) {i j b b' : Nat} (hi : i < g.nbC) (hj : j < g.nbC)
    (hij : i ≠ j) (hb : rd g.rowPtr i = .ok b) (hb' : rd g.rowPtr j = .ok b') :
    b + (rowL g.rowPtr g.colInd i).length ≤ b' ∨ b' + (rowL g.rowPtr g.colInd j).length ≤ b := by
  obtain ⟨c, e, hc, he, hce, hec, h5⟩ := h.row hi g.colInd rfl
  obtain ⟨c', e', hc', he', hce', hec', h5'⟩ := h.row hj g.colInd rfl
  have hl : (rowL g.rowPtr g.colInd i).length = e - c := by
    unfold rowL; rw [h5]; simp; omega
  have hl' : (rowL g.rowPtr g.colInd j).length = e' - c' := by
    unfold rowL; rw [h5']; simp; omega
  rw [rd_ok.1 hb] at hc; cases hc
  rw [rd_ok.1 hb'] at hc'; cases hc'
  rcases Nat.lt_or_gt_of_ne hij with hlt | hlt
  · have := h.mono' (show i + 1 ≤ j by omega) he (rd_ok.1 hb'); omega
  · have := h.mono' (show j + 1 ≤ i by omega) he' (rd_ok.1 hb); omega

theorem tagCells_hash (hW : LawfulLt W) {g : Graph W} (h h' : Hash) {prio : List W} {coupling : Coupling} {p : Nat} {thr : W}
    (hI : LinesInput g prio coupling thr) {maxW : List W} (hmw : maxW.length = g.nbC) (isAniso : List Bool) :
    g.tagCells h prio coupling p thr maxW isAniso = g.tagCells h' prio coupling p thr maxW isAniso := by
  unfold Graph.tagCells
  have hcomp : ∀ x, x ∈ h.ord 6 g.compliant.elems → x ∈ g.compliant := fun x hx =>
    NSet.mem_elems.1 ((h.perm 6 _).mem_iff.1 hx)
  rw [foldlM_perm_inv (h.perm_both h' 6 g.compliant.elems)
    (I := fun (s : TagSt W) => s.alt.length = (altInit g coupling).length ∧ s.maxW.length = g.nbC)]
  · rintro s x s' ⟨h1, h2⟩ hx hs
    obtain ⟨b, ds, mx, t, hf⟩ := tagOne_form (p := p) hI (hcomp x hx)
    have : s' = _ := Except.ok.inj (hs.symm.trans (hf.eq s h1 h2))
    subst this
    exact ⟨by simp only [setFrom_length]; exact h1, by simp [h2]⟩
  · rintro s x y ⟨h1, h2⟩ hx hy hxy
    obtain ⟨b, ds, mx, t, hf⟩ := tagOne_form (p := p) hI (hcomp x hx)
    obtain ⟨b', ds', mx', t', hf'⟩ := tagOne_form (p := p) hI (hcomp y hy)
    have e1 := hf.eq s h1 h2
    have e2 := hf'.eq s h1 h2
    rw [e1, e2, ok_bind, ok_bind]
    have e3 := hf'.eq ⟨setFrom s.alt b ds, s.maxW.set x mx, tagPut t x s.tagged⟩
      (by simp only [setFrom_length]; exact h1) (by simp [h2])
    have e4 := hf.eq ⟨setFrom s.alt b' ds', s.maxW.set y mx', tagPut t' y s.tagged⟩
      (by simp only [setFrom_length]; exact h1) (by simp [h2])
    rw [e3, e4]
    have a1 : setFrom (setFrom s.alt b ds) b' ds' = setFrom (setFrom s.alt b' ds') b ds := by
      rcases hf.vals with hd | ⟨hd1, hd2⟩
      · subst hd; rfl
      rcases hf'.vals with hd' | ⟨hd1', hd2'⟩
      · subst hd'; rfl
      refine setFrom_comm (by rw [h1]; exact hd2) (by rw [h1]; exact hd2') (Or.inr (Or.inr ?_))
      rw [hd1, hd1']
      exact rows_apart hI.crs (hI.compliant x (hcomp x hx)) (hI.compliant y (hcomp y hy)) hxy hf.off hf'.off
    rw [a1, List.set_comm _ _ hxy]
    cases t <;> cases t'
    · rfl
    · rfl
    · rfl
    · simp only [tagPut]
      rw [pinsert_comm hW]
  · exact ⟨rfl, hmw⟩

theorem buildLines_hash (hW : LawfulLt W) {g : Graph W} (h h' : Hash) {prio : List W} {coupling : Coupling} {thr : W}
    (hI : LinesInput g prio coupling thr) (force : Bool) :
    buildLines g h prio coupling force thr = buildLines g h' prio coupling force thr := by
  unfold buildLines
  rw [tagCells_hash hW h h' hI (by simp)]

end CoMMA
