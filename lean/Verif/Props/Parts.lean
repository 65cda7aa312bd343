import Verif.Lemmas.PartsCall
/-! # Meshes made of parts that are not connected -/

set_option linter.unusedSectionVars false

namespace CoMMA

variable {W : Type} [Num W] {K : Nat → Prop}

section
variable {P : Platform} {a a' : Args W} {o o' : Outs} {n n' : Nat} {E E' : IsoEnv W (Feats W)}

/-- the lines of a call, cut into groups; none without lines -/
theorem LinesOfCall.cut {g : Graph W} {gss : List (List (List Nat))} {out : Outs} (h : LinesOfCall g a o n gss out) :
    ∃ fls, CutsLines g a fls gss ∧ ((WithoutLines a o ∧ fls = []) ∨ TakesLines g a o n fls) := by
  cases h with
  | off h1 h2 _ _ => subst h2; exact ⟨[], .nil, Or.inl ⟨h1, rfl⟩⟩
  | @on fls _ h1 h2 _ _ => exact ⟨fls, h2, Or.inr h1⟩

theorem GivenLines.taken {g : Graph W} {ls fls : List (List Nat)} (h : GivenLines a o n ls)
    (ht : (WithoutLines a o ∧ fls = []) ∨ TakesLines g a o n fls) : fls = ls.filter (fun l => decide (1 < l.length)) := by
  rcases h with ⟨h1, rfl⟩ | h1
  · rcases ht with ⟨_, rfl⟩ | ht
    · rfl
    · exact absurd h1 ht.on
  · rcases ht with ⟨h2, rfl⟩ | ht
    · exact absurd h2 (TakesLines.given (g := g) h1).on
    · cases ht with
      | built hb _ _ _ _ => have := hb.build; rw [h1.build] at this; cases this
      | given hg => rw [hg.enc.unique h1.enc]

theorem linesIn_filter (q : List Nat → Bool) (ls : List (List Nat)) : linesIn K (ls.filter q) = (linesIn K ls).filter q := by
  classical
  unfold linesIn
  exact List.filter_comm _ _ _

/-- the lines in the shared part are the same -/
theorem SharedPart.lines (h : SharedPart K a a' n n') (hm : ValidMesh a n) (hm' : ValidMesh a' n') (hW : LawfulLt W)
    (hE : CallEnv P a E) (hE' : CallEnv P a' E') (hs : SharedLines K a a' o o' n n') {fls fls' : List (List Nat)}
    (ht : (WithoutLines a o ∧ fls = []) ∨ TakesLines E.g a o n fls) (ht' : (WithoutLines a' o' ∧ fls' = []) ∨ TakesLines E'.g a' o' n' fls') :
    linesIn K fls = linesIn K fls' ∧ Inside K fls ∧ Inside K fls' := by
  classical
  rcases hs with ⟨hb, hb'⟩ | ⟨ls, ls', h1, h2, h3, h4, h5⟩
  · have hn : ∀ {a : Args W} {o : Outs} {n : Nat}, BuildsLines a n → ¬ WithoutLines a o := by
      intro a o n hb hc
      rcases hc with hc | ⟨hc, _⟩
      · rw [hb.on] at hc; cases hc
      · rw [hb.build] at hc; cases hc
    rcases ht with ⟨h1, _⟩ | ht
    · exact absurd h1 (hn hb)
    rcases ht' with ⟨h1, _⟩ | ht'
    · exact absurd h1 (hn hb')
    cases ht with
    | given hg => have := hg.build; rw [hb.build] at this; cases this
    | @built seeds _ _ s1 s2 s3 s4 =>
    cases ht' with
    | given hg => have := hg.build; rw [hb'.build] at this; cases this
    | @built seeds' _ _ s1' s2' s3' s4' =>
    have hc := h.partCells hm hm' hE hE'
    have ethr : a'.thr = a.thr := (congrArg Args.thr h.others :)
    have ecpl : meantCoupling a' = meantCoupling a := by
      unfold meantCoupling
      rw [show a'.coupling = a.coupling from (congrArg Args.coupling h.others :),
        show a'.buildLines = a.buildLines from (congrArg Args.buildLines h.others :)]
    have efd : a'.forceDir = a.forceDir := (congrArg Args.forceDir h.others :)
    have hmem : ∀ x, K x → (x ∈ seeds' ↔ x ∈ seeds) := by
      intro x hx
      rw [s1, s1', h.compliant x hx, ethr, hc.anisotropic _ hx]
    rw [ecpl, efd] at s4'
    refine s4.samePart hW hc s4' (fun x hx => hmem x hx) ?_
    have hin : ∀ x ∈ seeds'.filter (fun x => decide (K x)), K x := fun x hx => of_decide_eq_true (List.mem_filter.1 hx).2
    refine PriorityOrdered.unique hW (List.Pairwise.filter _ s3)
      (ordered_part (fun i hi => (h.prio i hi).symm) hin (List.Pairwise.filter _ s3')) ?_ (s2.filter _) (s2'.filter _)
    intro x
    rw [List.mem_filter, List.mem_filter]
    refine and_congr_left (fun hx => ?_)
    exact (hmem x (of_decide_eq_true hx)).symm
  · rw [h1.taken ht, h2.taken ht', linesIn_filter, linesIn_filter, h5]
    exact ⟨rfl, fun l hl => h3 l (List.mem_of_mem_filter hl), fun l hl => h4 l (List.mem_of_mem_filter hl)⟩

theorem CallEnv.bnd_le (hp : ValidParams P a) (hE : CallEnv P a E) : ∀ b ∈ E.pool.nBnd, b ≤ 3 := by
  intro b hb
  rw [hE.poolBnd, hE.nBnd, List.mem_map] at hb
  obtain ⟨c, _, rfl⟩ := hb
  have h1 := hE.dim
  have h2 := hp.dim
  omega

/-- **C76** What a call does with a part of the mesh that is not connected to the rest does not
depend on the rest.  With boundary priority, two calls that share such a part make the same coarse cells of it,
numbered in the same order, and no coarse cell has cells of the part and of the rest; whatever the rest
is, and whether there are lines or not. -/
theorem C76_parts (hm : ValidMesh a n) (hm' : ValidMesh a' n') (hp : ValidParams P a) (hp' : ValidParams P a') (hW : LawfulLt W)
    (hu : UniqueRows a.rowPtr a.colInd) (hu' : UniqueRows a'.rowPtr a'.colInd) (hl : NoSelfLoop a.rowPtr a.colInd)
    (hl' : NoSelfLoop a'.rowPtr a'.colInd) (hmode : ValidMode (graphOf a) a o n) (hmode' : ValidMode (graphOf a') a' o' n')
    (hs : CorrectsSingletons a) (hb : a.order = .boundary) (h : SharedPart K a a' n n') (hsl : SharedLines K a a' o o' n n') :
    ∃ out out', agglomerateOneLevel P a o = (out, .ok ()) ∧ agglomerateOneLevel P a' o' = (out', .ok ()) ∧
      SameCells K out.fcToCc out'.fcToCc := by
  have hs' : CorrectsSingletons a' := by
    unfold CorrectsSingletons
    rw [show a'.correction = a.correction from (congrArg Args.correction h.others :),
      show a'.singThresh = a.singThresh from (congrArg Args.singThresh h.others :),
      show a'.minCard = a.minCard from (congrArg Args.minCard h.others :)]
    exact hs
  have hb' : a'.order = .boundary := by rw [← hb]; exact (congrArg Args.order h.others :)
  have hcor : a'.correction = a.correction := (congrArg Args.correction h.others :)
  have hodd : a'.oddLine = a.oddLine := (congrArg Args.oddLine h.others :)
  have hlim : lineLimit a' = lineLimit a := by
    unfold lineLimit
    rw [show a'.maxCells = a.maxCells from (congrArg Args.maxCells h.others :),
      show a'.buildLines = a.buildLines from (congrArg Args.buildLines h.others :)]
  obtain ⟨c, k, p, idx, lines, gss0, hd⟩ := described hm hp hW hu hl hmode
  obtain ⟨f, f0, k1, _, _⟩ := hd.fixed hm hp hu hl hs
  obtain ⟨c', k', p', idx', lines', gss0', hd'⟩ := described hm' hp' hW hu' hl' hmode'
  obtain ⟨f', f0', k1', _, _⟩ := hd'.fixed hm' hp' hu' hl' hs'
  refine ⟨_, _, k1, k1', ?_⟩
  obtain ⟨E, gss, f1, d1, d2, d3, d4⟩ := (C65_greedy hm hp hW hu hl hmode hs _).1 k1
  obtain ⟨E', gss', f1', d1', d2', d3', d4'⟩ := (C65_greedy hm' hp' hW hu' hl' hmode' hs' _).1 k1'
  have hone : ∀ {a : Args W} {E : IsoEnv W (Feats W)}, a.order = .boundary → CallEnv P a E → E.pool.onePoint = false := by
    intro a E hb hE
    rw [Bool.eq_false_iff]
    intro hc
    have := hE.onePoint.1 hc
    rw [hb] at this
    simp at this
  have hg := h.graphs hm hm'
  have hr : PartRuns K E E' :=
    ⟨hW, h.env hm hm' d1 d1', d1.kind.2 (Or.inl hb), d1'.kind.2 (Or.inl hb'), by have := d1.minCard; have := hp.minCard; omega,
      (h.partCells hm hm' d1 d1').graphs.apart, (h.partCells hm hm' d1 d1').graphs.apart'⟩
  obtain ⟨fls, e1, e2⟩ := d2.cut
  obtain ⟨fls', e1', e2'⟩ := d2'.cut
  obtain ⟨l1, l2, l3⟩ := h.lines hm hm' hW d1 d1' hsl e2 e2'
  have hpair : ∀ {a : Args W} {g : Graph W} (l : List Nat) (gs : List (List Nat)),
      (∃ r, Oriented g.nBnd a.prio l r ∧ Pairs a.oddLine (lineLimit a) 0 r gs) → ∀ g ∈ gs, (∃ x, x ∈ g) ∧ ∀ x ∈ g, x ∈ l := by
    rintro a g l gs ⟨r, r1, r2⟩ x hx
    obtain ⟨y1, y2⟩ := r2.cells x hx
    exact ⟨y1, fun z hz => (r1.mem_iff z).1 (y2 z hz)⟩
  obtain ⟨i1, gs1, j1, j2⟩ := groups_onPart e1 hpair l2
  obtain ⟨i1', gs1', j1', j2'⟩ := groups_onPart e1' hpair l3
  have hgs : gs1 = gs1' := by
    rw [← l1] at j1'
    refine groups_same j1 j1' ?_
    rintro l hlm gs gs' ⟨r, r1, r2⟩ ⟨r', r1', r2'⟩
    obtain ⟨hlf, x, hx, hK⟩ := mem_linesIn.1 hlm
    have := (r1.part (fun i hi => (h.bnds hm hm' d1 d1' hi)) (fun i hi => h.prio i hi) (l2 l hlf x hx hK)).unique r1'
    subst this
    rw [hodd, hlim] at r2'
    exact r2.unique r2'
  have hmap := d3.part hr (hone hb d1) (hone hb' d1') (d1.bnd_le hp) (d1'.bnd_le hp') h.cells i1 i1' (by rw [j2, j2', hgs]) d3'
  unfold FixedSingles at d4 d4'
  rw [hcor] at d4'
  by_cases hc : a.correction = true
  · rw [if_pos hc] at d4 d4'
    exact hmap.corrected hg d4 d4'
  · rw [if_neg hc] at d4 d4'
    rw [d4, d4']
    exact hmap.cells

/-- a call without lines -/
theorem withoutLines_shared (ho : WithoutLines a o) (ho' : WithoutLines a' o') : SharedLines K a a' o o' n n' := by
  refine Or.inr ⟨[], [], Or.inl ⟨ho, rfl⟩, Or.inl ⟨ho', rfl⟩, ?_, ?_, rfl⟩ <;> · intro l hl; cases hl

end

/-- two rows of cells, no face between them; boundary priority -/
def exTwoRows : Args Int := { exHood with order := .boundary }
/-- the first row alone -/
def exOneRow : Args Int :=
  { exTwoRows with
    rowPtr := [0,1,3,5,6], colInd := [1,0,2,1,3,2], values := [1,1,1,1,1,1], volumes := [1,1,1,1],
    centers := [[0,0,0],[1,0,0],[2,0,0],[3,0,0]], nBnd := [3,0,0,0], prio := [7,6,5,4] }

theorem exTwoRows_valid : ValidMesh exTwoRows 7 :=
  ⟨exHood_valid.pos, exHood_crs, exHood_valid.sym, exHood_valid.uniq, rfl, rfl, rfl, rfl, rfl, exHood_valid.coords⟩

theorem exOneRow_crs : ValidCRS 4 exOneRow.rowPtr exOneRow.colInd := checkCRS_sound (by decide)

theorem exOneRow_valid : ValidMesh exOneRow 4 :=
  ⟨by decide, exOneRow_crs, checkSym_sound exOneRow_crs (by decide), Or.inr exLawful, rfl, rfl, rfl, rfl, rfl, 3, by decide⟩

theorem exRows_shared : SharedPart (· < 4) exTwoRows exOneRow 7 4 where
  cells i hi := ⟨by omega, hi⟩
  closed i j hi hj := by
    have key : ∀ i < 4, ∀ j ∈ rowOf exTwoRows.rowPtr exTwoRows.colInd i, j < 4 := by decide
    exact key i hi j (adj_iff_rowOf.1 hj)
  faces := by decide
  volumes := by decide
  centers := by decide
  prio := by decide
  bnd := by decide
  compliant i _ := Iff.rfl
  others := rfl

example := C76_parts (P := exPlatform) (o := ⟨[], [], []⟩) (o' := ⟨[], [], []⟩) exTwoRows_valid exOneRow_valid
  ⟨by decide, by decide, by decide, by decide, by decide, by decide, by decide, by decide, by decide⟩
  ⟨by decide, by decide, by decide, by decide, by decide, by decide, by decide, by decide, by decide⟩ exLawful
  (checkUniq_sound exHood_crs (by decide)) (checkUniq_sound exOneRow_crs (by decide))
  (checkNoLoop_sound exHood_crs (by decide)) (checkNoLoop_sound exOneRow_crs (by decide))
  (withoutLines_mode (Or.inl rfl)) (withoutLines_mode (Or.inl rfl)) (fun h => by cases h) rfl exRows_shared
  (withoutLines_shared (Or.inl rfl) (Or.inl rfl))

/-- the results of both calls: the same coarse cells of the first row, with other numbers -/
example : (agglomerateOneLevel exPlatform exTwoRows ⟨[], [], []⟩).1.fcToCc = [0, 0, 3, 3, 2, 1, 1] ∧
    (agglomerateOneLevel exPlatform exOneRow ⟨[], [], []⟩).1.fcToCc = [0, 0, 1, 1] := by
  constructor <;> decide +kernel

/-- the same calls with given lines: the first row, and one of the second row -/
def exTwoLines : Args Int := { exTwoRows with isAniso := true }
def exOneLine : Args Int := { exOneRow with isAniso := true }

theorem exTwoLines_gives : GivesLines exTwoLines ⟨[], [0, 2, 5], [4, 5, 0, 1, 2]⟩ 7 [[4, 5], [0, 1, 2]] :=
  ⟨rfl, rfl, ⟨by decide, by decide⟩, by decide, by decide, by decide⟩
theorem exOneLine_gives : GivesLines exOneLine ⟨[], [0, 3], [0, 1, 2]⟩ 4 [[0, 1, 2]] :=
  ⟨rfl, rfl, ⟨by decide, by decide⟩, by decide, by decide, by decide⟩

theorem exLines_shared : SharedPart (· < 4) exTwoLines exOneLine 7 4 where
  cells i hi := ⟨by omega, hi⟩
  closed := exRows_shared.closed
  faces := exRows_shared.faces
  volumes := exRows_shared.volumes
  centers := exRows_shared.centers
  prio := exRows_shared.prio
  bnd := exRows_shared.bnd
  compliant i _ := Iff.rfl
  others := rfl

theorem given_mode {a : Args W} {o : Outs} {n : Nat} {g : Graph W} {ls : List (List Nat)} (h : GivesLines a o n ls) (hl : a.maxCells = none) :
    ValidMode g a o n :=
  ⟨Or.inr (Or.inr ⟨ls, h⟩), fun fls _ l _ m hm => by rw [lineLimit, hl] at hm; cases hm⟩

example := C76_parts (P := exPlatform) (a := exTwoLines) (a' := exOneLine) (K := (· < 4))
  ⟨exTwoRows_valid.pos, exHood_crs, exHood_valid.sym, exHood_valid.uniq, rfl, rfl, rfl, rfl, rfl, exHood_valid.coords⟩
  ⟨by decide, exOneRow_crs, exOneRow_valid.sym, Or.inr exLawful, rfl, rfl, rfl, rfl, rfl, 3, by decide⟩
  ⟨by decide, by decide, by decide, by decide, by decide, by decide, by decide, by decide, by decide⟩
  ⟨by decide, by decide, by decide, by decide, by decide, by decide, by decide, by decide, by decide⟩ exLawful
  (checkUniq_sound exHood_crs (by decide)) (checkUniq_sound exOneRow_crs (by decide))
  (checkNoLoop_sound exHood_crs (by decide)) (checkNoLoop_sound exOneRow_crs (by decide))
  (given_mode exTwoLines_gives rfl) (given_mode exOneLine_gives rfl) (fun h => by cases h) rfl exLines_shared
  (Or.inr ⟨_, _, Or.inr exTwoLines_gives, Or.inr exOneLine_gives, by unfold Inside; decide, by unfold Inside; decide,
    by rw [linesIn_cons_out (by decide), linesIn_cons_in ⟨0, by decide⟩]⟩)

/-- the first row without boundary faces -/
def exHood0 : Args Int := { exHood with nBnd := [0,0,0,0,1,0,2] }

theorem exHood0_valid : ValidMesh exHood0 7 :=
  ⟨exHood_valid.pos, exHood_crs, exHood_valid.sym, exHood_valid.uniq, rfl, rfl, rfl, rfl, rfl, exHood_valid.coords⟩

theorem exHood0_shared : SharedPart (fun i => 4 ≤ i ∧ i < 7) exHood exHood0 7 7 where
  cells i hi := ⟨hi.2, hi.2⟩
  closed i j hi hj := by
    have key : ∀ i < 7, 4 ≤ i → ∀ j ∈ rowOf exHood.rowPtr exHood.colInd i, 4 ≤ j ∧ j < 7 := by decide
    exact key i hi.2 hi.1 j (adj_iff_rowOf.1 hj)
  faces i hi := rfl
  volumes i hi := rfl
  centers i hi := rfl
  prio i hi := rfl
  bnd i hi := by
    have key : ∀ i < 7, 4 ≤ i → exHood0.nBnd[i]? = exHood.nBnd[i]? := by decide
    exact key i hi.2 hi.1
  compliant i _ := Iff.rfl
  others := rfl

/-- **C76 fails with neighbourhood priority**: the coarse cells of the second row depend on the
boundary faces of the first one, with which it has no face in common.  Once the first row is done the pool goes
to the level of the lowest-numbered free cell that has enough boundary faces. -/
theorem C76_neighbourhood_counterexample :
    ValidMesh exHood 7 ∧ ValidMesh exHood0 7 ∧ ValidParams exPlatform exHood ∧ ValidParams exPlatform exHood0 ∧
      SharedPart (fun i => 4 ≤ i ∧ i < 7) exHood exHood0 7 7 ∧
      agglomerateOneLevel exPlatform exHood ⟨[], [], []⟩ = (⟨[0, 0, 1, 1, 2, 2, 3], [], []⟩, .ok ()) ∧
      agglomerateOneLevel exPlatform exHood0 ⟨[], [], []⟩ = (⟨[2, 2, 3, 3, 1, 0, 0], [], []⟩, .ok ()) :=
  ⟨exHood_valid, exHood0_valid,
    ⟨by decide, by decide, by decide, by decide, by decide, by decide, by decide, by decide, by decide⟩,
    ⟨by decide, by decide, by decide, by decide, by decide, by decide, by decide, by decide, by decide⟩,
    exHood0_shared, by decide +kernel, by decide +kernel⟩

/-- a row of five cells, boundary priority with one-point initialisation -/
def exPoint : Args Int :=
  { exArgs3 with
    rowPtr := [0,1,3,5,7,8], colInd := [1,0,2,1,3,2,4,3], values := [1,1,1,1,1,1,1,1], volumes := [1,1,1,1,1],
    centers := [[0,0],[1,0],[2,0],[3,0],[4,0]], nBnd := [1,1,1,1,1], prio := [2,1,1,1,3], dim := 2, correction := false,
    compliant := [], order := .boundaryOnePoint, minCard := 2, goalCard := 2, maxCard := 3 }
/-- the same row and one more cell, without faces -/
def exPoint' : Args Int :=
  { exPoint with
    rowPtr := [0,1,3,5,7,8,8], volumes := [1,1,1,1,1,1], centers := [[0,0],[1,0],[2,0],[3,0],[4,0],[0,1]],
    nBnd := [1,1,1,1,1,1], prio := [2,1,1,1,3,10] }

theorem exPoint_crs : ValidCRS 5 exPoint.rowPtr exPoint.colInd := checkCRS_sound (by decide)
theorem exPoint_crs' : ValidCRS 6 exPoint'.rowPtr exPoint'.colInd := checkCRS_sound (by decide)
theorem exPoint_valid : ValidMesh exPoint 5 :=
  ⟨by decide, exPoint_crs, checkSym_sound exPoint_crs (by decide), Or.inr exLawful, rfl, rfl, rfl, rfl, rfl, 2, by decide⟩
theorem exPoint_valid' : ValidMesh exPoint' 6 :=
  ⟨by decide, exPoint_crs', checkSym_sound exPoint_crs' (by decide), Or.inr exLawful, rfl, rfl, rfl, rfl, rfl, 2, by decide⟩

theorem exPoint_shared : SharedPart (· < 5) exPoint exPoint' 5 6 where
  cells i hi := ⟨hi, by omega⟩
  closed i j hi hj := by
    have key : ∀ i < 5, ∀ j ∈ rowOf exPoint.rowPtr exPoint.colInd i, j < 5 := by decide
    exact key i hi j (adj_iff_rowOf.1 hj)
  faces := by decide
  volumes := by decide
  centers := by decide
  prio := by decide
  bnd := by decide
  compliant i _ := Iff.rfl
  others := rfl

/-- **C76 fails with one-point initialisation**: one more cell, without faces, changes the
coarse cells of the row.  The one point of the pool is taken by that cell, and the row is then started
from all its cells at once. -/
theorem C76_one_point_counterexample :
    ValidMesh exPoint 5 ∧ ValidMesh exPoint' 6 ∧ ValidParams exPlatform exPoint ∧ ValidParams exPlatform exPoint' ∧
      SharedPart (· < 5) exPoint exPoint' 5 6 ∧
      agglomerateOneLevel exPlatform exPoint ⟨[], [], []⟩ = (⟨[1, 1, 1, 0, 0], [], []⟩, .ok ()) ∧
      agglomerateOneLevel exPlatform exPoint' ⟨[], [], []⟩ = (⟨[2, 2, 3, 1, 1, 0], [], []⟩, .ok ()) :=
  ⟨exPoint_valid, exPoint_valid',
    ⟨by decide, by decide, by decide, by decide, by decide, by decide, by decide, by decide, by decide⟩,
    ⟨by decide, by decide, by decide, by decide, by decide, by decide, by decide, by decide, by decide⟩,
    exPoint_shared, by decide +kernel, by decide +kernel⟩

end CoMMA
