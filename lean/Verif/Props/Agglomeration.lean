import Verif.Lemmas.Outcome
import Verif.Lemmas.ExampleTools
import Verif.Spec.Examples
/-! # C01-C05, C09, C10, C29: isotropic calls of `agglomerate_one_level`

`agglomerateOneLevel P a o` is the pair (values of the output arguments, how the call ends).
Everything holds for every iteration order of unordered containers (`P.hash`) and every
weight type `W`, whatever its arithmetic. -/

set_option linter.unusedSectionVars false

namespace CoMMA

variable {W : Type} [Num W]

/-- **C01** Every isotropic call with a valid mesh and accepted parameters returns normally,
`fc_to_cc` has one index per fine cell and the arguments for lines are untouched. -/
theorem C01_total {P : Platform} {a : Args W} {o : Outs} {n : Nat} (hm : ValidMesh a n) (hp : ValidParams P a)
    (hs : CorrectsSingletons a) (hoff : WithoutLines a o) :
    ∃ f, agglomerateOneLevel P a o = (⟨f, o.linesIdx, o.lines⟩, .ok ()) ∧ f.length = n := by
  obtain ⟨c, k, p, h, rfl⟩ := start_iso hm hp hoff
  obtain ⟨k1, k2, N, f, ho⟩ := outcome hm hp hs h
  exact ⟨f, ho.eq, ho.reads.len⟩

/-- **C02** The indices in `fc_to_cc` are `0 .. N-1`, all in use. -/
theorem C02_contiguous {P : Platform} {a : Args W} {o : Outs} {n : Nat} (hm : ValidMesh a n) (hp : ValidParams P a)
    (hs : CorrectsSingletons a) (hoff : WithoutLines a o) :
    Contiguous (agglomerateOneLevel P a o).1.fcToCc := by
  obtain ⟨c, k, p, h, rfl⟩ := start_iso hm hp hoff
  obtain ⟨k1, k2, N, f, ho⟩ := outcome hm hp hs h
  rw [ho.eq]
  exact ho.reads.contiguous

/-- **C03** Without correction no coarse cell has more than `max_card` fine cells. -/
theorem C03_max_card {P : Platform} {a : Args W} {o : Outs} {n : Nat} (hm : ValidMesh a n) (hp : ValidParams P a)
    (hcor : a.correction = false) (hoff : WithoutLines a o) (k : Nat) :
    ((agglomerateOneLevel P a o).1.fcToCc.count k : Int) ≤ a.maxCard := by
  obtain ⟨c, k0, p, h, rfl⟩ := start_iso hm hp hoff
  obtain ⟨k1, k2, N, f, ho⟩ := outcome hm hp (by intro h; rw [hcor] at h; cases h) h
  rw [ho.eq]
  have h1 := hp.minCard
  have h2 := hp.goalCard
  have h3 := hp.maxCard
  show (f.count k : Int) ≤ a.maxCard
  by_cases hk : k ∈ f
  · obtain ⟨i, hi⟩ := List.mem_iff_getElem?.1 hk
    obtain ⟨cc, hc⟩ := ho.reads.cc hi
    rw [ho.reads.count hc]
    obtain ⟨rfl, _⟩ := ho.plain hcor
    have := (ho.inv.iso k cc (Nat.zero_le _) hc).2.le
    have hmx : (isoEnvOf P a c).maxCard = a.maxCard.toNat := cardOr_pos (by omega)
    rw [hmx] at this
    omega
  · rw [List.count_eq_zero_of_not_mem hk]; omega

/-- **C04** Without correction, if a coarse cell has fewer than `min_card` fine cells then
all neighbours of its fine cells are in it or in coarse cells with smaller indices: nothing
was left to take when it was created. -/
theorem C04_min_card {P : Platform} {a : Args W} {o : Outs} {n : Nat} (hm : ValidMesh a n) (hp : ValidParams P a)
    (hcor : a.correction = false) (hoff : WithoutLines a o) {x y kx ky : Nat}
    (hx : (agglomerateOneLevel P a o).1.fcToCc[x]? = some kx) (hy : (agglomerateOneLevel P a o).1.fcToCc[y]? = some ky)
    (hsmall : ((agglomerateOneLevel P a o).1.fcToCc.count kx : Int) < a.minCard)
    (hadj : Adj a.rowPtr a.colInd x y) : ky ≤ kx := by
  obtain ⟨c, k0, p, h, rfl⟩ := start_iso hm hp hoff
  obtain ⟨k1, k2, N, f, ho⟩ := outcome hm hp (by intro h; rw [hcor] at h; cases h) h
  rw [ho.eq] at hx hy hsmall
  simp only at hx hy hsmall
  have h1 := hp.minCard
  obtain ⟨cc, hc⟩ := ho.reads.cc hx
  rw [ho.reads.count hc] at hsmall
  have hxm := (ho.reads.mem hc x).2 hx
  have hr := ho.reads
  obtain ⟨rfl, _⟩ := ho.plain hcor
  have hmn : (isoEnvOf P a c).minCard = a.minCard.toNat := cardOr_pos (by omega)
  rcases (ho.inv.iso kx cc (Nat.zero_le _) hc).2.small (by rw [hmn]; omega) x hxm y hadj with h5 | ⟨k', h5, h6⟩
  · have := (hr.mem hc y).1 h5
    rw [hy] at this; cases this; exact Nat.le_refl _
  · have := (hr.get y k').2 h6
    rw [hy] at this; cases this; omega

/-- **C05** The fine cells of a coarse cell are connected within the coarse cell, with or
without correction. -/
theorem C05_connected {P : Platform} {a : Args W} {o : Outs} {n : Nat} (hm : ValidMesh a n) (hp : ValidParams P a)
    (hs : CorrectsSingletons a) (hoff : WithoutLines a o) (k : Nat) :
    ConnectedSet a.rowPtr a.colInd (fun i => (agglomerateOneLevel P a o).1.fcToCc[i]? = some k) := by
  obtain ⟨c, k0, p, h, rfl⟩ := start_iso hm hp hoff
  obtain ⟨k1, k2, N, f, ho⟩ := outcome hm hp hs h
  rw [ho.eq]
  by_cases hk : k ∈ f
  · obtain ⟨i, hi⟩ := List.mem_iff_getElem?.1 hk
    obtain ⟨cc, hc⟩ := ho.reads.cc hi
    exact ho.reads.connected hc (ho.sound h.aniso hc (ho.isoOnly rfl hc)).1
  · intro x y hx
    exact absurd (List.mem_of_getElem? hx) hk

/-- **C09** After a corrected call, a coarse cell made of one fine cell `x` remains only if
`x` has no neighbour but itself. -/
theorem C09_no_singletons {P : Platform} {a : Args W} {o : Outs} {n : Nat} (hm : ValidMesh a n) (hp : ValidParams P a)
    (hcor : a.correction = true) (hs : CorrectsSingletons a) (hoff : WithoutLines a o) {x k : Nat}
    (hx : (agglomerateOneLevel P a o).1.fcToCc[x]? = some k) (h1 : (agglomerateOneLevel P a o).1.fcToCc.count k = 1) :
    ∀ y, Adj a.rowPtr a.colInd x y → y = x := by
  obtain ⟨c, k0, p, h, rfl⟩ := start_iso hm hp hoff
  obtain ⟨k1, k2, N, f, ho⟩ := outcome hm hp hs h
  rw [ho.eq] at hx h1
  simp only at hx h1
  obtain ⟨cc, hc⟩ := ho.reads.cc hx
  rw [ho.reads.count hc] at h1
  intro y hxy
  rcases (ho.corr hcor).left k cc hc (ho.isoOnly rfl hc) (by omega) x ((ho.reads.mem hc x).2 hx) y hxy with h5 | ⟨k', cc', _, h5, h6⟩
  · exact h5
  · rw [ho.isoOnly rfl h5] at h6; cases h6

/-- **C10** A corrected call, compared with the same call without correction: cells that
were together stay together; coarse cells that both had several cells are not merged; a
singleton that was merged has a neighbour in its new coarse cell.  (Connectivity and
contiguity are C05 and C02.) -/
theorem C10_only_merges {P : Platform} {a : Args W} {o : Outs} {n : Nat} (hm : ValidMesh a n) (hp : ValidParams P a)
    (hcor : a.correction = true) (hs : CorrectsSingletons a) (hoff : WithoutLines a o) :
    ∃ f f0 : List Nat, agglomerateOneLevel P a o = (⟨f, o.linesIdx, o.lines⟩, .ok ()) ∧
      agglomerateOneLevel P { a with correction := false } o = (⟨f0, o.linesIdx, o.lines⟩, .ok ()) ∧
      f.length = n ∧ f0.length = n ∧
      (∀ i j : Nat, i < n → j < n → f0[i]? = f0[j]? → f[i]? = f[j]?) ∧
      (∀ (i j : Nat) k l, f0[i]? = some k → f0[j]? = some l → 1 < f0.count k → 1 < f0.count l → k ≠ l → f[i]? ≠ f[j]?) ∧
      (∀ i j : Nat, i < n → i ≠ j → f[i]? = f[j]? → f0[i]? ≠ f0[j]? →
        ∃ y, y ≠ i ∧ Adj a.rowPtr a.colInd i y ∧ f[y]? = f[i]?) := by
  obtain ⟨c, k0, p, h, rfl⟩ := start_iso hm hp hoff
  obtain ⟨k1, k2, N, f, f0, ho, ho0⟩ := outcome_both hm hp hcor hs h
  have hr := ho.reads
  have hr0 := ho0.reads
  have hk := ho.corr hcor
  have hsome : ∀ i : Nat, i < n → ∃ k, f[i]? = some k := fun i hi => ⟨_, List.getElem?_eq_getElem (by rw [hr.len]; exact hi)⟩
  have hsome0 : ∀ i : Nat, i < n → ∃ k, f0[i]? = some k := fun i hi => ⟨_, List.getElem?_eq_getElem (by rw [hr0.len]; exact hi)⟩
  have heq : ∀ i j : Nat, i < n → j < n → (f[i]? = f[j]? ↔ k2.fc2cc[i]? = k2.fc2cc[j]?) := by
    intro i j hi hj
    obtain ⟨u, hu⟩ := hsome i hi
    obtain ⟨v, hv⟩ := hsome j hj
    rw [hu, hv, (hr.get i u).1 hu, (hr.get j v).1 hv]
    simp
  refine ⟨f, f0, ho.eq, ho0.eq, hr.len, hr0.len, ?_, ?_, ?_⟩
  · intro i j hi hj he
    obtain ⟨u, hu⟩ := hsome0 i hi
    rw [heq i j hi hj]
    exact hk.join i j u ((hr0.get i u).1 hu) ((hr0.get j u).1 (by rw [← he]; exact hu))
  · intro i j k l hik hjl hck hcl hkl he
    obtain ⟨cck, hcck⟩ := hr0.cc hik
    obtain ⟨ccl, hccl⟩ := hr0.cc hjl
    have hi : i < n := by rw [← hr0.len]; exact (List.getElem?_eq_some_iff.1 hik).1
    have hj : j < n := by rw [← hr0.len]; exact (List.getElem?_eq_some_iff.1 hjl).1
    rw [heq i j hi hj] at he
    rw [hr0.count hcck] at hck
    rw [hr0.count hccl] at hcl
    exact hk.big i j k l cck ccl ((hr0.get i k).1 hik) ((hr0.get j l).1 hjl) hcck hccl hck hcl hkl he
  · intro i j hi hij he _
    obtain ⟨u, hu⟩ := hsome i hi
    have hcon := C05_connected hm hp hs hoff u
    rw [ho.eq] at hcon
    obtain ⟨m, hw⟩ := hcon j i (by show f[j]? = _; rw [← he]; exact hu) hu
    obtain ⟨y, hy, ⟨hadj, hy2, _⟩⟩ := hw.last (Ne.symm hij)
    exact ⟨y, hy, hm.sym _ _ hadj, by rw [hu]; exact hy2⟩

/-- **C29** In the container at the end of an isotropic call (with or without correction, no
repeated neighbour and no self loop) coarse cell `j` holds exactly the fine cells mapped to
`j`, and its compactness is the smallest number of neighbours that one of them has in it. -/
theorem C29_compactness {P : Platform} {a : Args W} {o : Outs} {n : Nat} (hm : ValidMesh a n) (hp : ValidParams P a)
    (hs : CorrectsSingletons a) (hoff : WithoutLines a o) (hu : UniqueRows a.rowPtr a.colInd)
    (hl : NoSelfLoop a.rowPtr a.colInd) :
    ∃ f c k p k', checkAll P a o = .ok c ∧ anisoPhase P a o c = .ok (k, p, o.linesIdx, o.lines) ∧
      isoPhase P a c k p = .ok k' ∧ agglomerateOneLevel P a o = (⟨f, o.linesIdx, o.lines⟩, .ok ()) ∧
      ∀ j ∈ f, ∃ cc, k'.ccs.find? j = some cc ∧ (∀ i : Nat, i ∈ cc.fcs ↔ f[i]? = some j) ∧
        IsCompactness a.rowPtr a.colInd cc.fcs cc.compact := by
  obtain ⟨c, k0, p, h, rfl⟩ := start_iso hm hp hoff
  obtain ⟨k1, k2, N, f, ho⟩ := outcome hm hp hs h
  refine ⟨f, c, _, p, k2, h.check, h.eq, ho.phase, ho.eq, ?_⟩
  intro j hj
  obtain ⟨i, hi⟩ := List.mem_iff_getElem?.1 hj
  obtain ⟨cc, hc⟩ := ho.reads.cc hi
  exact ⟨cc, hc, ho.reads.mem hc, (ho.sound h.aniso hc (ho.isoOnly rfl hc)).2 hu hl⟩

/-! ## A concrete case: 2 x 3 cells, growth in three coarse cells with a singleton -/

/-- six cells `0 1 2 / 3 4 5` and a seventh one attached to cell 5 -/
def exArgs : Args Int where
  rowPtr := [0, 2, 5, 7, 9, 12, 15, 16]
  colInd := [1, 3, 0, 2, 4, 1, 5, 0, 4, 1, 3, 5, 2, 4, 6, 5]
  values := [1, 1, 1, 1, 1, 1, 1, 1, 1, 1, 1, 1, 1, 1, 1, 1]
  volumes := [1, 1, 1, 1, 1, 1, 1]
  centers := [[0, 0], [1, 0], [2, 0], [0, 1], [1, 1], [2, 1], [3, 1]]
  prio := [7, 6, 5, 4, 3, 2, 1]
  compliant := []
  nBnd := [2, 1, 2, 2, 1, 1, 3]
  buildLines := false
  isAniso := false
  oddLine := false
  thr := 4
  order := .boundary
  correction := true
  dim := 2
  goalCard := 2
  minCard := 2
  maxCard := 3
  aspect := .diamOverRadius
  singThresh := 1
  maxCells := none
  coupling := .maxWeight
  forceDir := true
  fcIter := 1
  nbh := .extended

def exPlatform : Platform := ⟨1000, 1000, Hash.id⟩

theorem exArgs_crs : ValidCRS 7 exArgs.rowPtr exArgs.colInd := checkCRS_sound (by decide)

theorem exArgs_valid : ValidMesh exArgs 7 where
  pos := by decide
  crs := exArgs_crs
  sym := checkSym_sound exArgs_crs (by decide)
  uniq := Or.inl (checkUniq_sound exArgs_crs (by decide))
  values := rfl
  volumes := rfl
  centers := rfl
  prio := rfl
  bnd := rfl
  coords := ⟨2, by decide⟩

theorem exArgs_params : ValidParams exPlatform exArgs where
  dim := by decide
  minCard := by decide
  goalCard := by decide
  maxCard := by decide
  iter := by decide
  thresh := by decide
  order := by decide
  aspect := by decide
  onePoint := by decide

theorem exArgs_sing : CorrectsSingletons exArgs := fun _ => Or.inl rfl



/-- the theorems apply to it -/
example : ∃ f, agglomerateOneLevel exPlatform exArgs ⟨[], [], []⟩ = (⟨f, [], []⟩, .ok ()) ∧ f.length = 7 :=
  C01_total exArgs_valid exArgs_params exArgs_sing (Or.inl rfl)

/-- a path of three cells, small enough to run the whole call in the kernel: without
correction cell 2 is a singleton, correction merges it -/
def exArgs3 : Args Int :=
  { exArgs with
    rowPtr := [0, 1, 3, 4], colInd := [1, 0, 2, 1], values := [1, 1, 1, 1], volumes := [1, 1, 1],
    centers := [[0, 0], [1, 0], [2, 0]], prio := [3, 2, 1], nBnd := [3, 2, 3], maxCard := 2 }

example : (agglomerateOneLevel exPlatform { exArgs3 with correction := false } ⟨[], [], []⟩).1.fcToCc = [0, 0, 1] := by
  decide +kernel
example : (agglomerateOneLevel exPlatform exArgs3 ⟨[], [], []⟩).1.fcToCc = [0, 0, 0] := by
  decide +kernel

end CoMMA
