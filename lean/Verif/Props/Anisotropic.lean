import Verif.Lemmas.AnisoOutcome
import Verif.Lemmas.WeightRange
import Verif.Props.Agglomeration
import Verif.Props.Lines
/-! # C11, C40: anisotropic calls of `agglomerate_one_level`

The lines of a call are those it builds (C19) or those the caller provides.  In both cases
the call gives a partition, the exported lines list the coarse cells made of the lines, and
the other coarse cells have the properties of an isotropic call. -/

set_option linter.unusedSectionVars false

namespace CoMMA

variable {W : Type} [Num W]

/-- What an anisotropic call with fine lines `fls` returns: a partition with contiguous
indices and the coarse lines.  For the coarse cells that are not on a line: at most
`max_card` cells without correction; fewer than `min_card` cells without correction only if
all neighbours are in coarse cells with smaller indices; connected; after correction a
single cell only if all its neighbours are on coarse lines. -/
structure AnisoResult (a : Args W) (n : Nat) (fls : List (List Nat)) (out : Outs) : Prop where
  len : out.fcToCc.length = n
  contiguous : Contiguous out.fcToCc
  lines : CoarsensLines a fls out
  max : a.correction = false → ∀ k, k ∉ out.lines → (out.fcToCc.count k : Int) ≤ a.maxCard
  min : a.correction = false → ∀ x y kx ky : Nat, out.fcToCc[x]? = some kx → out.fcToCc[y]? = some ky → kx ∉ out.lines →
    (out.fcToCc.count kx : Int) < a.minCard → Adj a.rowPtr a.colInd x y → ky ≤ kx
  connected : ∀ k, k ∉ out.lines → ConnectedSet a.rowPtr a.colInd (fun i => out.fcToCc[i]? = some k)
  single : a.correction = true → ∀ x k : Nat, out.fcToCc[x]? = some k → k ∉ out.lines → out.fcToCc.count k = 1 →
    ∀ y, Adj a.rowPtr a.colInd x y → y = x ∨ ∃ ky, out.fcToCc[y]? = some ky ∧ ky ∈ out.lines

theorem AnisoStart.result {P : Platform} {a : Args W} {o : Outs} {n : Nat} (hm : ValidMesh a n) (hp : ValidParams P a)
    (hs : CorrectsSingletons a) {fls : List (List Nat)} {c : PoolCfg W} {k : Cont}
    {p : Pool} {cls : List (List Nat)} {gss : List (List (List Nat))} (h : AnisoStart P a o n fls c k p cls gss) :
    ∃ out, agglomerateOneLevel P a o = (out, .ok ()) ∧ AnisoResult a n fls out := by
  obtain ⟨k1, k2, N, f, ho⟩ := outcome hm hp hs h.start
  have h1 := hp.minCard
  have h2 := hp.goalCard
  have h3 := hp.maxCard
  have hin : ∀ j, j ∉ (exportLines cls).2 → ¬ j < k.counter := fun j hj hlt =>
    hj ((exportLines_mem cls j).2 ((h.counter j).1 hlt))
  have hr := ho.reads
  refine ⟨⟨f, _, _⟩, ho.eq, hr.len, hr.contiguous, h.coarsens ho, ?_, ?_, ?_, ?_⟩
  · intro hcor j hj
    show (f.count j : Int) ≤ a.maxCard
    by_cases hk : j ∈ f
    · obtain ⟨i, hi⟩ := List.mem_iff_getElem?.1 hk
      obtain ⟨cc, hc⟩ := hr.cc hi
      rw [hr.count hc]
      obtain ⟨rfl, _⟩ := ho.plain hcor
      have hge := hin j hj
      have := (ho.inv.iso j cc (by omega) hc).2.le
      have hmx : (isoEnvOf P a c).maxCard = a.maxCard.toNat := cardOr_pos (by omega)
      rw [hmx] at this
      omega
    · rw [List.count_eq_zero_of_not_mem hk]; omega
  · intro hcor x y kx ky hx hy hkx hsmall hadj
    simp only at hx hy hsmall
    obtain ⟨cc, hc⟩ := hr.cc hx
    rw [hr.count hc] at hsmall
    have hxm := (hr.mem hc x).2 hx
    obtain ⟨rfl, _⟩ := ho.plain hcor
    have hmn : (isoEnvOf P a c).minCard = a.minCard.toNat := cardOr_pos (by omega)
    have hge := hin kx hkx
    rcases (ho.inv.iso kx cc (by omega) hc).2.small (by rw [hmn]; omega) x hxm y hadj with h5 | ⟨k', h5, h6⟩
    · have := (hr.mem hc y).1 h5
      rw [hy] at this; cases this; exact Nat.le_refl _
    · have := (hr.get y k').2 h6
      rw [hy] at this; cases this; omega
  · intro j hj
    by_cases hk : j ∈ f
    · obtain ⟨i, hi⟩ := List.mem_iff_getElem?.1 hk
      obtain ⟨cc, hc⟩ := hr.cc hi
      exact hr.connected hc (ho.sound h.start.aniso hc ((h.iso ho hc).2 (hin j hj))).1
    · intro x y hx
      exact absurd (List.mem_of_getElem? hx) hk
  · intro hcor x j hx hj hcount y hxy
    simp only at hx hcount
    obtain ⟨cc, hc⟩ := hr.cc hx
    rw [hr.count hc] at hcount
    rcases (ho.corr hcor).left j cc hc ((h.iso ho hc).2 (hin j hj)) (by omega) x ((hr.mem hc x).2 hx) y hxy with h5 | ⟨k', cc', h5, h6, h7⟩
    · exact Or.inl h5
    · refine Or.inr ⟨k', (hr.get y k').2 h5, ?_⟩
      refine (exportLines_mem cls k').2 ((h.counter k').1 ?_)
      by_contra hn
      rw [(h.iso ho h6).2 hn] at h7; cases h7

/-- **C40** (lines built by the call) The call returns normally, for every way of iterating
over unordered containers, unless an odd limit exceeds the length of a line by one (C21).
`fls` are the lines of C19; everything in `AnisoResult` holds. -/
theorem C40_built (hW : LawfulLt W) {P : Platform} {a : Args W} {o : Outs} {n : Nat} (hm : ValidMesh a n)
    (hp : ValidParams P a) (hs : CorrectsSingletons a) (hb : BuildsLines a n)
    (hno : ∀ fls, fineLines P a o = .ok fls → FitsLimit a fls) :
    ∃ fls out, fineLines P a o = .ok fls ∧ agglomerateOneLevel P a o = (out, .ok ()) ∧ AnisoResult a n fls out ∧
      fls.flatten.Nodup ∧ (∀ l ∈ fls, 2 ≤ l.length ∧ IsPath a.rowPtr a.colInd l) ∧
      ∀ x ∈ fls.flatten, x ∈ a.compliant ∧ IsAnisotropic (graphOf a) (meantThreshold a.thr) x := by
  obtain ⟨fls, h1, h2, h3, h4, h5⟩ := fineLines_build (P := P) (o := o) hm hb
  obtain ⟨c, k, p, cls, gss, h⟩ := built_start hm hp hb h1 (hno fls h1)
  obtain ⟨out, h6, h7⟩ := h.result hm hp hs
  refine ⟨fls, out, h1, h6, h7, h2, fun l hl => ⟨h3 l hl, h4 l hl⟩, ?_⟩
  intro x hx
  obtain ⟨u, v⟩ := h5 x hx
  have hg := linesInput_of hm hb
  exact ⟨u, (isTagged_iff hW hg.crs hg.sizes.values (by rw [graphOf_nbC hm]; exact hb.compliant x u)).1 v⟩

/-- **C40** (lines provided by the caller) Lines of fewer than two cells are ignored. -/
theorem C40_given {P : Platform} {a : Args W} {o : Outs} {n : Nat} (hm : ValidMesh a n)
    (hp : ValidParams P a) (hs : CorrectsSingletons a) {ls : List (List Nat)} (hb : GivesLines a o n ls)
    (hno : FitsLimit a (ls.filter (fun l => decide (1 < l.length)))) :
    ∃ out, agglomerateOneLevel P a o = (out, .ok ()) ∧
      AnisoResult a n (ls.filter (fun l => decide (1 < l.length))) out := by
  obtain ⟨c, k, p, cls, gss, h⟩ := given_start hm hp hb hno
  exact h.result hm hp hs

theorem AnisoStart.corrected {P : Platform} {a : Args W} {o : Outs} {n : Nat} (hm : ValidMesh a n) (hp : ValidParams P a)
    (hcor : a.correction = true) (hs : CorrectsSingletons a) {fls : List (List Nat)} {c : PoolCfg W} {k : Cont}
    {p : Pool} {cls : List (List Nat)} {gss : List (List (List Nat))} (h : AnisoStart P a o n fls c k p cls gss) :
    ∃ f f0 idx lines, agglomerateOneLevel P a o = (⟨f, idx, lines⟩, .ok ()) ∧
      agglomerateOneLevel P { a with correction := false } o = (⟨f0, idx, lines⟩, .ok ()) ∧
      ∀ k ∈ lines, ∀ i : Nat, f[i]? = some k ↔ f0[i]? = some k := by
  obtain ⟨k1, k2, N, f, f0, ho, ho0⟩ := outcome_both hm hp hcor hs h.start
  refine ⟨f, f0, _, _, ho.eq, ho0.eq, ?_⟩
  intro j hj i
  have hlt := (h.counter j).2 ((exportLines_mem cls j).1 hj)
  obtain ⟨cc, hc⟩ := NMap.mem_keys.1 ((h.start.cinv.keys j).2 hlt)
  rw [← ho.reads.mem (by rw [h.kept ho hlt, hc]) i, ← ho0.reads.mem (by rw [ho.inv.old j hlt, hc]) i]

/-- **C11** Correction changes neither the exported lines nor the fine cells of the coarse
cells they list, compared with the same call without correction (lines built by the call
or provided). -/
theorem C11_lines_kept {P : Platform} {a : Args W} {o : Outs} {n : Nat} (hm : ValidMesh a n) (hp : ValidParams P a)
    (hcor : a.correction = true) (hs : CorrectsSingletons a) {ls : List (List Nat)}
    (hb : (BuildsLines a n ∧ ∀ fls, fineLines P a o = .ok fls → FitsLimit a fls) ∨
      (GivesLines a o n ls ∧ FitsLimit a (ls.filter (fun l => decide (1 < l.length))))) :
    ∃ f f0 idx lines, agglomerateOneLevel P a o = (⟨f, idx, lines⟩, .ok ()) ∧
      agglomerateOneLevel P { a with correction := false } o = (⟨f0, idx, lines⟩, .ok ()) ∧
      ∀ k ∈ lines, ∀ i : Nat, f[i]? = some k ↔ f0[i]? = some k := by
  rcases hb with ⟨hb, hno⟩ | ⟨hb, hno⟩
  · obtain ⟨fls, h1, _⟩ := fineLines_build (P := P) (o := o) hm hb
    obtain ⟨c, k, p, cls, gss, h⟩ := built_start hm hp hb h1 (hno fls h1)
    exact h.corrected hm hp hcor hs
  · obtain ⟨c, k, p, cls, gss, h⟩ := given_start hm hp hb hno
    exact h.corrected hm hp hcor hs

/-! ## Concrete cases -/

/-- a path of three cells, line `0 1` provided with a useless second line `2` -/
def exGiven : Args Int := { exArgs3 with isAniso := true, oddLine := true, nBnd := [3, 2, 3] }

def exGivenOuts : Outs := ⟨[], [0, 2, 3], [0, 1, 2]⟩

theorem exGiven_crs : ValidCRS 3 exGiven.rowPtr exGiven.colInd := checkCRS_sound (by decide)

theorem exGiven_valid : ValidMesh exGiven 3 where
  pos := by decide
  crs := exGiven_crs
  sym := checkSym_sound exGiven_crs (by decide)
  uniq := Or.inl (checkUniq_sound exGiven_crs (by decide))
  values := rfl
  volumes := rfl
  centers := rfl
  prio := rfl
  bnd := rfl
  coords := ⟨2, by decide⟩

theorem exGiven_params : ValidParams exPlatform exGiven where
  dim := by decide
  minCard := by decide
  goalCard := by decide
  maxCard := by decide
  iter := by decide
  thresh := by decide
  order := by decide
  aspect := by decide
  onePoint := by decide

theorem exGiven_lines : GivesLines exGiven exGivenOuts 3 [[0, 1], [2]] where
  on := rfl
  build := rfl
  enc := ⟨rfl, rfl⟩
  data := by decide
  disjoint := by decide
  range := by decide

/-- cell 2 stays alone: its only neighbour is on a coarse line -/
example : agglomerateOneLevel exPlatform exGiven exGivenOuts = (⟨[0, 0, 1], [0, 1], [0]⟩, .ok ()) := by decide +kernel
example := C40_given exGiven_valid exGiven_params (fun _ => Or.inl rfl) exGiven_lines (by intro l _ m h; cases h)
example := C11_lines_kept exGiven_valid exGiven_params rfl (fun _ => Or.inl rfl)
  (Or.inr ⟨exGiven_lines, by intro l _ m h; cases h⟩)

/-- the two columns of `exCols`, lines built by the call -/
def exBuild : Args Int :=
  { exArgs with
    rowPtr := exCols.rowPtr, colInd := exCols.colInd, values := exCols.values, volumes := exCols.volumes,
    centers := exCols.centers, prio := exColsPrio, nBnd := exCols.nBnd, compliant := [0, 1, 2, 3, 4, 5],
    isAniso := true, buildLines := true, thr := 4 }

theorem exBuild_valid : ValidMesh exBuild 6 where
  pos := by decide
  crs := exCols_crs
  sym := checkSym_sound exCols_crs (by decide)
  uniq := Or.inr exLawful
  values := rfl
  volumes := rfl
  centers := rfl
  prio := rfl
  bnd := rfl
  coords := ⟨2, by decide⟩

theorem exBuild_params : ValidParams exPlatform exBuild where
  dim := by decide
  minCard := by decide
  goalCard := by decide
  maxCard := by decide
  iter := by decide
  thresh := by decide
  order := by decide
  aspect := by decide
  onePoint := by decide

theorem exBuild_lines : BuildsLines exBuild 6 where
  on := rfl
  build := rfl
  compliant := by decide
  isolated h := by cases h

example : fineLines exPlatform exBuild ⟨[], [], []⟩ = .ok [[0, 1, 2], [3, 4, 5]] := by decide +kernel
example := C40_built exLawful (o := ⟨[], [], []⟩) exBuild_valid exBuild_params (fun _ => Or.inl rfl) exBuild_lines
  (by intro _ _ l _ m h; cases h)

end CoMMA
