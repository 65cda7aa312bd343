import Verif.Props.AfterLines
import Verif.Props.Connectivity
/-! # C29, C53 for calls with lines: what is stored with each coarse cell -/

set_option linter.unusedSectionVars false

namespace CoMMA

variable {W : Type} [Num W] {P : Platform} {a : Args W} {o : Outs} {n : Nat}

/-- a final coarse cell that is not one of those made from lines is isotropic; those made from
lines are stored as they were created -/
theorem Outcome.later {k0 : Cont} {p0 : Pool} {c : PoolCfg W} {idx lines : List Nat} {k1 k2 : Cont} {N : Nat} {f : List Nat}
    (h : Outcome P a o n k0 p0 c idx lines k1 k2 N f) (hci : CInv n k0)
    (h0 : ∀ j cc, k0.ccs.find? j = some cc → cc.iso = false) :
    (∀ j cc, k0.counter ≤ j → k2.ccs.find? j = some cc → cc.iso = true) ∧
      ∀ j, j < k0.counter → k2.ccs.find? j = k0.ccs.find? j := by
  have hk1 : ∀ j, j < k0.counter → ∃ cc, k1.ccs.find? j = some cc ∧ cc.iso = false := by
    intro j hj
    obtain ⟨cc, hc⟩ := hci.keys' hj
    exact ⟨cc, by rw [h.inv.old j hj]; exact hc, h0 j cc hc⟩
  cases hcor : a.correction with
  | false =>
    obtain ⟨rfl, _⟩ := h.plain hcor
    exact ⟨fun j cc hj hc => (h.inv.iso j cc hj hc).1, fun j hj => h.inv.old j hj⟩
  | true =>
    have hk := h.corr hcor
    have keep := hk.aniso k0.counter hk1
    refine ⟨?_, fun j hj => by rw [keep j hj, h.inv.old j hj]⟩
    intro j cc hj hc
    have hcard := hk.card j cc hc
    obtain ⟨x, hx⟩ := NSet.card_pos_iff.1 (show 0 < cc.fcs.card by omega)
    have hx' := (hk.part j cc hc x).1 hx
    have hxn : x < n := by
      rw [← h.reads.len]; exact (List.getElem?_eq_some_iff.1 ((h.reads.get x j).2 hx')).1
    obtain ⟨j0, hj0⟩ := h.cinv.complete h.all hxn
    obtain ⟨cc0, hc0⟩ := h.cinv.keys' (h.cinv.range x j0 hj0)
    by_cases hlt : j0 < k0.counter
    · have e : k2.ccs.find? j0 = some cc0 := by rw [keep j0 hlt]; exact hc0
      have : x ∈ cc0.fcs := (h.cinv.part j0 cc0 hc0 x).2 hj0
      have := (hk.part j0 cc0 e x).1 this
      rw [hx'] at this
      cases this
      omega
    · rw [hk.flag x j cc j0 cc0 hx' hc hj0 hc0]
      exact (h.inv.iso j0 cc0 (by omega) hc0).1

theorem stored_cells (hm : ValidMesh a n) (hp : ValidParams P a) (hW : LawfulLt W) (hs : CorrectsSingletons a)
    (hu : UniqueRows a.rowPtr a.colInd) (hl : NoSelfLoop a.rowPtr a.colInd) (hmode : ValidMode (graphOf a) a o n) :
    ∃ f idx lines c k p k' m, checkAll P a o = .ok c ∧ anisoPhase P a o c = .ok (k, p, idx, lines) ∧
      isoPhase P a c k p = .ok k' ∧ agglomerateOneLevel P a o = (⟨f, idx, lines⟩, .ok ()) ∧ LineCells a o ⟨f, idx, lines⟩ m ∧ f.length = n ∧
      ∀ j ∈ f, ∃ cc, k'.ccs.find? j = some cc ∧ (∀ i : Nat, i ∈ cc.fcs ↔ f[i]? = some j) ∧ f.count j = cc.fcs.card ∧
        (m ≤ j → Sound (graphOf a) cc.fcs cc.compact ∧ ConnectedSet a.rowPtr a.colInd (fun i => f[i]? = some j)) ∧
        (j < m → cc.compact = 1) := by
  obtain ⟨c, k, p, idx, lines, gss, hd⟩ := described hm hp hW hu hl hmode
  obtain ⟨k1, k2, N, f, ho⟩ := outcome hm hp hs hd.start
  obtain ⟨h1, h2⟩ := ho.later hd.start.cinv hd.start.aniso
  refine ⟨f, idx, lines, c, k, p, k2, gss.flatten.length, hd.start.check, hd.start.eq, ho.phase, ho.eq, (hd.rows f).lineCells, ho.reads.len, ?_⟩
  intro j hj
  obtain ⟨i, hi⟩ := List.mem_iff_getElem?.1 hj
  obtain ⟨cc, hc⟩ := ho.reads.cc hi
  refine ⟨cc, hc, ho.reads.mem hc, (ho.reads.count hc).trans (ho.reads.card j cc hc).1, ?_, ?_⟩
  · intro hmj
    have := ho.sound hd.start.aniso hc (h1 j cc (by rw [hd.counter]; exact hmj) hc)
    exact ⟨this, ho.reads.connected hc this.1⟩
  · intro hmj
    rw [h2 j (by rw [hd.counter]; exact hmj)] at hc
    have hg := List.getElem?_eq_getElem hmj
    have := hd.made.new j _ hg
    rw [show (Cont.new n (effThresh a).toNat).counter + j = j from Nat.zero_add j, hc] at this
    cases this
    rfl

/-- **C29** in any mode: the compactness stored for each coarse cell made after the lines (all of
them without lines) is the smallest number of neighbours of one of its cells in the coarse
cell; for the cells made from lines it is one. -/
theorem C29_any_mode (hm : ValidMesh a n) (hp : ValidParams P a) (hW : LawfulLt W) (hs : CorrectsSingletons a)
    (hu : UniqueRows a.rowPtr a.colInd) (hl : NoSelfLoop a.rowPtr a.colInd) (hmode : ValidMode (graphOf a) a o n) :
    ∃ f idx lines c k p k' m, checkAll P a o = .ok c ∧ anisoPhase P a o c = .ok (k, p, idx, lines) ∧
      isoPhase P a c k p = .ok k' ∧ agglomerateOneLevel P a o = (⟨f, idx, lines⟩, .ok ()) ∧ LineCells a o ⟨f, idx, lines⟩ m ∧
      ∀ j ∈ f, ∃ cc, k'.ccs.find? j = some cc ∧ (∀ i : Nat, i ∈ cc.fcs ↔ f[i]? = some j) ∧
        (m ≤ j → IsCompactness a.rowPtr a.colInd cc.fcs cc.compact) ∧ (j < m → cc.compact = 1) := by
  obtain ⟨f, idx, lines, c, k, p, k', m, h1, h2, h3, h4, h5, hlen, h6⟩ := stored_cells hm hp hW hs hu hl hmode
  refine ⟨f, idx, lines, c, k, p, k', m, h1, h2, h3, h4, h5, fun j hj => ?_⟩
  obtain ⟨cc, g1, g2, _, g4, g5⟩ := h6 j hj
  exact ⟨cc, g1, g2, fun hmj => (g4 hmj).1.2 hu hl, g5⟩

/-- **C53** (partial) in any mode: every coarse cell made after the lines is connected, and
`is_connected` says so if it has two cells or more; it is always said for the cells made from
lines.  Missing: as for `C53_partial`; whether given lines are connected is not checked. -/
theorem C53_any_mode_partial (hm : ValidMesh a n) (hp : ValidParams P a) (hW : LawfulLt W) (hs : CorrectsSingletons a)
    (hu : UniqueRows a.rowPtr a.colInd) (hl : NoSelfLoop a.rowPtr a.colInd) (hmode : ValidMode (graphOf a) a o n) :
    ∃ f idx lines c k p k' m, checkAll P a o = .ok c ∧ anisoPhase P a o c = .ok (k, p, idx, lines) ∧
      isoPhase P a c k p = .ok k' ∧ agglomerateOneLevel P a o = (⟨f, idx, lines⟩, .ok ()) ∧ LineCells a o ⟨f, idx, lines⟩ m ∧
      ∀ j ∈ f, ∃ cc, k'.ccs.find? j = some cc ∧ (∀ i : Nat, i ∈ cc.fcs ↔ f[i]? = some j) ∧
        (m ≤ j → ConnectedSet a.rowPtr a.colInd (fun i => f[i]? = some j) ∧ (cc.isConnected = true ↔ 1 < f.count j)) ∧
        (j < m → cc.isConnected = true) := by
  obtain ⟨f, idx, lines, c, k, p, k', m, h1, h2, h3, h4, h5, hlen, h6⟩ := stored_cells hm hp hW hs hu hl hmode
  refine ⟨f, idx, lines, c, k, p, k', m, h1, h2, h3, h4, h5, fun j hj => ?_⟩
  obtain ⟨cc, g1, g2, g3, g4, g5⟩ := h6 j hj
  refine ⟨cc, g1, g2, fun hmj => ?_, fun hmj => by unfold CC.isConnected; rw [g5 hmj]; rfl⟩
  obtain ⟨hsnd, hcon⟩ := g4 hmj
  have hcomp := hsnd.2 hu hl
  refine ⟨hcon, ?_⟩
  rw [g3]
  unfold CC.isConnected
  rw [decide_eq_true_iff]
  constructor
  · intro h0
    by_contra hle
    have := hcomp.1 (by omega)
    omega
  · intro h1
    refine compactness_pos_of_connected hm.crs ?_ hsnd.1 hcomp h1
    intro x hx
    have := (List.getElem?_eq_some_iff.1 ((g2 x).1 hx)).1
    omega

/-! ### Concrete cases -/

example := C29_any_mode (o := exRow5Outs) exRow5_valid exRow5_params exLawful (fun h => by cases h)
  (checkUniq_sound exRow5_crs (by decide)) (checkNoLoop_sound exRow5_crs (by decide)) exRow5_mode

example := C53_any_mode_partial (o := ⟨[], [], []⟩) exBuild_valid exBuild_params exLawful (fun _ => Or.inl rfl)
  (checkUniq_sound exCols_crs (by decide)) (checkNoLoop_sound exCols_crs (by decide)) (exBuild_mode _)

end CoMMA
