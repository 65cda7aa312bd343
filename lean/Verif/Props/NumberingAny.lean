import Verif.Lemmas.NumberingAny
import Verif.Props.NumberingLines
import Verif.Props.AnyOrder
/-! # C70 with any threshold of correction

With a threshold above 1 the outputs depend on the order in which an unordered container of cells is
iterated, which itself depends on the numbers of the cells.  Here: nothing else depends on them. -/

set_option linter.unusedSectionVars false

namespace CoMMA

variable {W : Type} [Num W] {σ τ : Nat → Nat}

theorem CellByCell.length {rp ci : List Nat} {m : Nat} {start xs f f1 : List Nat} (h : CellByCell rp ci m start xs f f1) :
    f1.length = f.length := by
  induction h with
  | done => rfl
  | stays _ _ ih => exact ih
  | given _ _ ih => rw [ih, List.length_set]

theorem TreatsSmall.length {rp ci : List Nat} {m : Nat} {ks f D f1 D1 : List Nat} (h : TreatsSmall rp ci m ks f D f1 D1) :
    f1.length = f.length := by
  induction h with
  | done => rfl
  | whole _ _ _ ih => rw [ih, absorbed, List.length_map]
  | cells _ _ _ _ hc _ ih => rw [ih, hc.length]
  | alone _ _ ih => exact ih

theorem Renumbered.uncorrected {a a' : Args W} (h : Renumbered σ a a') :
    Renumbered σ { a with correction := false } { a' with correction := false } :=
  ⟨h.faces, h.volumes, h.centers, h.prio, h.bnd, h.compliant, congrArg (fun b : Args W => { b with correction := false }) h.others⟩

theorem TakesLines.of_uncorrected {g : Graph W} {a : Args W} {o : Outs} {n : Nat} {fls : List (List Nat)}
    (h : TakesLines g { a with correction := false } o n fls) : TakesLines g a o n fls := by
  cases h with
  | built h1 h2 h3 h4 h5 => exact .built ⟨h1.on, h1.build, h1.compliant, h1.isolated⟩ h2 h3 h4 h5
  | given h1 => exact .given ⟨h1.on, h1.build, h1.enc, h1.data, h1.disjoint, h1.range⟩

theorem ValidMode.uncorrected {a : Args W} {o : Outs} {n : Nat} (h : ValidMode (graphOf a) a o n) :
    ValidMode (graphOf { a with correction := false }) { a with correction := false } o n := by
  refine ⟨?_, fun fls hf => h.fits fls hf.of_uncorrected⟩
  rcases h.mode with h1 | ⟨h1, h2⟩ | ⟨ls, h1⟩
  · exact Or.inl h1
  · exact Or.inr (Or.inl ⟨⟨h1.on, h1.build, h1.compliant, h1.isolated⟩, h2⟩)
  · exact Or.inr (Or.inr ⟨ls, ⟨h1.on, h1.build, h1.enc, h1.data, h1.disjoint, h1.range⟩⟩)

/-- the correction turns images into images, in some order -/
theorem corrected_images {P : Platform} {a a' : Args W} {o o' : Outs} {n : Nat} (hm : ValidMesh a n) (hm' : ValidMesh a' n)
    (hp : ValidParams P a) (hW : LawfulLt W) (hu : UniqueRows a.rowPtr a.colInd) (hl : NoSelfLoop a.rowPtr a.colInd)
    (hmode : ValidMode (graphOf a) a o n) (hmode' : ValidMode (graphOf a') a' o' n)
    (h : Renumbering σ τ) (hr : Renumbered σ a a') (hw : WithoutLines a' o' ↔ WithoutLines a o) {f0 f0' idx lines idx' lines' : List Nat}
    (h1 : agglomerateOneLevel P { a with correction := false } o = (⟨f0, idx, lines⟩, .ok ()))
    (h1' : agglomerateOneLevel P { a' with correction := false } o' = (⟨f0', idx', lines'⟩, .ok ()))
    (hlines : ¬ WithoutLines a o → lines' = lines)
    (hn : f0.length = n) (hn' : f0'.length = n) (hf : ∀ i : Nat, f0'[σ i]? = f0[i]?) (ha : Hash) :
    ∃ hb f f', agglomerateOneLevel (P.iterating ha) a o = (⟨f, idx, lines⟩, .ok ()) ∧
      agglomerateOneLevel (P.iterating hb) a' o' = (⟨f', idx', lines'⟩, .ok ()) ∧
      f.length = n ∧ f'.length = n ∧ ∀ i : Nat, f'[σ i]? = f[i]? := by
  have e := hr.others
  have hp' := hr.params h hm hm' hp
  have hu' := hr.uniq h hm hm' hu
  have hl' := hr.noLoop h hm hm' hl
  obtain ⟨c, k, p, _, _, gss, hd⟩ := described hm hp hW hu hl hmode
  obtain ⟨f1, _, g1, g2, _⟩ := hd.some_order hW hm hp hu hl hmode
  rw [h1] at g1
  cases g1
  obtain ⟨f, q1, q2⟩ := g2 ha
  have hlc := (hd.rows f0).lineCells
  have hlc' : LineCells a' o' ⟨f0', idx', lines'⟩ gss.flatten.length := by
    rcases hlc with ⟨b1, b2⟩ | ⟨b1, b2⟩
    · exact Or.inl ⟨hw.2 b1, b2⟩
    · exact Or.inr ⟨fun hx => b1 (hw.1 hx), (hlines b1).trans b2⟩
  have hfl : f.length = n := by
    unfold FixedSmalls at q2
    split_ifs at q2 with hc
    · obtain ⟨N, f2, D, _, ht, rfl⟩ := q2
      unfold renumberedBut
      rw [List.length_map, ← hn]
      exact ht.length
    · rw [q2, hn]
  have key := C56_some_order hm' hp' hW hu' hl' hmode' h1' hlc'
  have hfix : ∃ f', (∀ i : Nat, f'[σ i]? = f[i]?) ∧ f'.length = f.length ∧ FixedSmalls a' gss.flatten.length f0' f' := by
    unfold FixedSmalls at q2 ⊢
    rw [show a'.correction = a.correction from (congrArg Args.correction e :)]
    split_ifs at q2 ⊢ with hc
    · have hlim : sizeLimit a' = sizeLimit a := by
        unfold sizeLimit
        rw [show a'.singThresh = a.singThresh from (congrArg Args.singThresh e :), show a'.minCard = a.minCard from (congrArg Args.minCard e :)]
      rw [hlim]
      exact SmallCorrectionOf.img h (hr.graph h hm hm') hf (hn'.trans hn.symm) q2
    · subst q2
      exact ⟨f0', hf, hn'.trans hn.symm, rfl⟩
  obtain ⟨f', w1, w2, w3⟩ := hfix
  obtain ⟨hb, hh⟩ := (key ⟨f', idx', lines'⟩).2 ⟨rfl, rfl, w3⟩
  exact ⟨hb, f, f', q1, hh, hfl, w2.trans hfl, w1⟩

/-- **C70** (partial, any threshold) Without lines: for every order in which the call on the mesh iterates
over unordered containers there is one in which the call on the renumbered mesh gives each cell the
same coarse cell, with the same number. -/
theorem C70_numbering_any_partial {P : Platform} {a a' : Args W} {o : Outs} {n : Nat} (hm : ValidMesh a n) (hm' : ValidMesh a' n)
    (hp : ValidParams P a) (hW : LawfulLt W) (hu : UniqueRows a.rowPtr a.colInd) (hl : NoSelfLoop a.rowPtr a.colInd)
    (hF : FeatInput (graphOf a) a.aspect) (ho : WithoutLines a o)
    (hb : BoundaryFirst a ∨ ConnectedMesh n a.rowPtr a.colInd)
    (h : Renumbering σ τ) (hr : Renumbered σ a a') (hk : KeepsTies σ a.prio) (order : Hash) :
    ∃ order' f f', agglomerateOneLevel (P.iterating order) a o = (⟨f, o.linesIdx, o.lines⟩, .ok ()) ∧
      agglomerateOneLevel (P.iterating order') a' o = (⟨f', o.linesIdx, o.lines⟩, .ok ()) ∧
      f.length = n ∧ f'.length = n ∧ ∀ i : Nat, f'[σ i]? = f[i]? := by
  have e := hr.others
  have ew : WithoutLines a' o ↔ WithoutLines a o := by
    unfold WithoutLines
    rw [show a'.isAniso = a.isAniso from (congrArg Args.isAniso e :), show a'.buildLines = a.buildLines from (congrArg Args.buildLines e :)]
  obtain ⟨f0, f0', h1, h2, h3, h4, h5⟩ := C70_numbering_partial (P := P) (o := o) (a := { a with correction := false })
    (a' := { a' with correction := false }) hm.uncorrected hm'.uncorrected hp.uncorrected hW hu hl hF ho (fun hx => by cases hx) hb h
    hr.uncorrected hk
  exact corrected_images hm hm' hp hW hu hl (withoutLines_mode ho) (withoutLines_mode (ew.2 ho)) h hr ew h1 h2
    (fun hx => absurd ho hx) h3 h4 h5 order

theorem corrected_lines_images {P : Platform} {a a' : Args W} {o o' : Outs} {n : Nat} (hm : ValidMesh a n) (hm' : ValidMesh a' n)
    (hp : ValidParams P a) (hW : LawfulLt W) (hu : UniqueRows a.rowPtr a.colInd) (hl : NoSelfLoop a.rowPtr a.colInd)
    (hmode : ValidMode (graphOf a) a o n) (ho : ¬ WithoutLines a o)
    (h : Renumbering σ τ) (hr : Renumbered σ a a') (hk : KeepsTies σ a.prio) (hlines : SameLines σ a o o')
    {f0 f0' idx lines : List Nat}
    (h1 : agglomerateOneLevel P { a with correction := false } o = (⟨f0, idx, lines⟩, .ok ()))
    (h2 : agglomerateOneLevel P { a' with correction := false } o' = (⟨f0', idx, lines⟩, .ok ()))
    (h3 : f0.length = n) (h4 : f0'.length = n) (h5 : ∀ i : Nat, f0'[σ i]? = f0[i]?) (order : Hash) :
    ∃ order' f f' idx lines, agglomerateOneLevel (P.iterating order) a o = (⟨f, idx, lines⟩, .ok ()) ∧
      agglomerateOneLevel (P.iterating order') a' o' = (⟨f', idx, lines⟩, .ok ()) ∧
      f.length = n ∧ f'.length = n ∧ ∀ i : Nat, f'[σ i]? = f[i]? := by
  have e := hr.others
  have hmode' : ValidMode (graphOf a') a' o' n := by
    obtain ⟨c, k, p, _, _, gss, hd⟩ := described hm hp hW hu hl hmode
    cases hd.rows f0 with
    | off hoff => exact absurd hoff ho
    | on t1 _ _ _ => exact hr.mode h hm hm' hW hk hlines ho hmode (t1.ofCall hm hW (callEnv hp hd.start.made))
  have ho' : ¬ WithoutLines a' o' := by
    have e1 : a'.isAniso = a.isAniso := (congrArg Args.isAniso e :)
    have e2 : a'.buildLines = a.buildLines := (congrArg Args.buildLines e :)
    unfold WithoutLines at ho ⊢
    rw [e1, e2]
    rcases hlines with ⟨b1, _⟩ | ⟨b1, b2, b3⟩
    · rw [b1] at ho ⊢
      simpa using ho
    · rw [b1] at ho ⊢
      rw [b2, b3]
      simpa using ho
  obtain ⟨hb', f, f', q⟩ := corrected_images hm hm' hp hW hu hl hmode hmode' h hr ⟨fun hx => absurd hx ho', fun hx => absurd hx ho⟩ h1 h2
    (fun _ => rfl) h3 h4 h5 order
  exact ⟨hb', f, f', idx, lines, q⟩

/-- **C70** (partial, any threshold) With lines, built or given: for every order in which the call on the
mesh iterates over unordered containers there is one in which the call on the renumbered mesh gives
each cell the same coarse cell, with the same number, and the same coarse lines. -/
theorem C70_lines_any_partial {P : Platform} {a a' : Args W} {o o' : Outs} {n : Nat} (hm : ValidMesh a n) (hm' : ValidMesh a' n)
    (hp : ValidParams P a) (hW : LawfulLt W) (heq : ExactEq W) (hu : UniqueRows a.rowPtr a.colInd) (hl : NoSelfLoop a.rowPtr a.colInd)
    (hF : FeatInput (graphOf a) a.aspect) (hmode : ValidMode (graphOf a) a o n) (ho : ¬ WithoutLines a o)
    (hb : BoundaryFirst a ∨ ConnectedMesh n a.rowPtr a.colInd)
    (h : Renumbering σ τ) (hr : Renumbered σ a a') (hrow : SameRowOrder σ a a') (hk : KeepsTies σ a.prio) (hlines : SameLines σ a o o')
    (order : Hash) :
    ∃ order' f f' idx lines, agglomerateOneLevel (P.iterating order) a o = (⟨f, idx, lines⟩, .ok ()) ∧
      agglomerateOneLevel (P.iterating order') a' o' = (⟨f', idx, lines⟩, .ok ()) ∧
      f.length = n ∧ f'.length = n ∧ ∀ i : Nat, f'[σ i]? = f[i]? := by
  obtain ⟨f0, f0', idx, lines, h1, h2, h3, h4, h5⟩ := C70_lines_partial (P := P) (o := o) (o' := o') (a := { a with correction := false })
    (a' := { a' with correction := false }) hm.uncorrected hm'.uncorrected hp.uncorrected hW heq hu hl hF
    hmode.uncorrected ho (fun hx => by cases hx) hb h hr.uncorrected hrow hk hlines
  exact corrected_lines_images hm hm' hp hW hu hl hmode ho h hr hk hlines h1 h2 h3 h4 h5 order

/-! ### Concrete cases -/

/-- the mesh of `exOrder` with different priorities; threshold 2 -/
def exSwap : Args Int := { exOrder with prio := [9, 7, 6, 5, 4, 3, 2, 8] }
/-- cells 3 and 4 swapped -/
def exSwap' : Args Int :=
  { exSwap with
    rowPtr := [0, 1, 3, 5, 7, 10, 13, 15, 16], colInd := [1, 0, 2, 1, 4, 4, 5, 2, 3, 5, 4, 3, 6, 5, 7, 6],
    centers := [[0, 0], [1, 0], [2, 0], [4, 0], [3, 0], [5, 0], [6, 0], [7, 0]], prio := [9, 7, 6, 4, 5, 3, 2, 8] }

theorem exSwap_crs' : ValidCRS 8 exSwap'.rowPtr exSwap'.colInd := checkCRS_sound (by decide)

theorem exSwap_valid : ValidMesh exSwap 8 :=
  ⟨by decide, exOrder_crs, exOrder_valid.sym, exOrder_valid.uniq, rfl, rfl, rfl, rfl, rfl, ⟨2, by decide⟩⟩

theorem exSwap_valid' : ValidMesh exSwap' 8 :=
  ⟨by decide, exSwap_crs', checkSym_sound exSwap_crs' (by decide), Or.inr exLawful, rfl, rfl, rfl, rfl, rfl, ⟨2, by decide⟩⟩

theorem exSwap_params : ValidParams exPlatform exSwap :=
  ⟨by decide, by decide, by decide, by decide, by decide, by decide, by decide, by decide, by decide⟩

theorem exSwap_loop : NoSelfLoop exSwap.rowPtr exSwap.colInd := checkNoLoop_sound exOrder_crs (by decide)

theorem exSwap_input : FeatInput (graphOf exSwap) exSwap.aspect where
  crs := exOrder_crs
  sizes := ⟨rfl, rfl, rfl, rfl, 2, by decide⟩
  sym := exOrder_valid.sym
  add := exCommAdd
  weights _ := ⟨exExact, symWeights_of exOrder_crs rfl (by decide), exSwap_loop⟩
  geom _ := ⟨exLawful, exSymm⟩
  bary _ := ⟨exLawful, exSymm⟩
  facets h := absurd h (by decide)

theorem exSwap_swapped : Renumbered (swapCells 3 4) exSwap exSwap' :=
  Renumbered.of_cells exSwap_valid exSwap_valid' (swap_out (by decide) (by decide)) (by decide) (by decide) (by decide) rfl

example := C70_numbering_any_partial (o := ⟨[], [], []⟩) exSwap_valid exSwap_valid' exSwap_params exLawful
  (checkUniq_sound exOrder_crs (by decide)) exSwap_loop exSwap_input (Or.inl rfl) (Or.inl (Or.inl rfl)) (swap_renumbering 3 4)
  exSwap_swapped (keepsTies_of (by decide)) Hash.id

/-- a given line and threshold 2 -/
def exFrontAny (a : Args Int) : Args Int := { a with minCard := 3, goalCard := 3, maxCard := 3, singThresh := 2, correction := true }

theorem exFrontAny_valid : ValidMesh (exFrontAny exFrontLine) 6 :=
  ⟨by decide, exGrid6_crs, exGrid6_valid.sym, Or.inr exLawful, rfl, rfl, rfl, rfl, rfl, ⟨2, by decide⟩⟩

theorem exFrontAny_valid' : ValidMesh (exFrontAny exFrontLine') 6 :=
  ⟨by decide, exFrontLine_crs', checkSym_sound exFrontLine_crs' (by decide), Or.inr exLawful, rfl, rfl, rfl, rfl, rfl, ⟨2, by decide⟩⟩

example := C70_lines_any_partial (P := exPlatform) (a := exFrontAny exFrontLine) (a' := exFrontAny exFrontLine')
  (o := ⟨[], [0, 2], [1, 4]⟩) (o' := ⟨[], [0, 2], [1, 0]⟩) exFrontAny_valid exFrontAny_valid'
  ⟨by decide, by decide, by decide, by decide, by decide, by decide, by decide, by decide, by decide⟩
  exLawful exExactEq exGrid6_uniq exGrid6_loop exGrid6_input
  ⟨Or.inr (Or.inr ⟨_, ⟨rfl, rfl, exFrontLine_gives.enc, exFrontLine_gives.data, exFrontLine_gives.disjoint, exFrontLine_gives.range⟩⟩),
    fun _ _ => by intro l _ m h; cases h⟩
  (by rintro (h | ⟨_, h | h⟩) <;> revert h <;> decide) (Or.inr exGrid6_connected) (swap_renumbering 0 4)
  (Renumbered.of_cells exFrontAny_valid exFrontAny_valid' (swap_out (by decide) (by decide)) (by decide) (by decide) (by decide) rfl)
  (sameRowOrder_of exFrontAny_valid exFrontAny_valid' (swap_out (by decide) (by decide)) (by decide))
  (keepsTies_of (by decide)) (Or.inr ⟨rfl, rfl, by decide⟩) Hash.rev

/-- **C70 fails with a threshold above 1** and the same order of iteration over unordered containers (here
by increasing number): cell 3 joins the coarse cell of cell 2 in the first call, not in the second. -/
theorem C70_threshold_counterexample :
    ValidMesh exSwap 8 ∧ ValidMesh exSwap' 8 ∧ ValidParams exPlatform exSwap ∧ Renumbered (swapCells 3 4) exSwap exSwap' ∧
      exSwap.prio.Nodup ∧
      agglomerateOneLevel exPlatform exSwap ⟨[], [], []⟩ = (⟨[0, 0, 0, 0, 1, 1, 1, 1], [], []⟩, .ok ()) ∧
      agglomerateOneLevel exPlatform exSwap' ⟨[], [], []⟩ = (⟨[0, 0, 0, 1, 1, 1, 1, 1], [], []⟩, .ok ()) :=
  ⟨exSwap_valid, exSwap_valid', exSwap_params, exSwap_swapped, by decide, by decide +kernel, by decide +kernel⟩

/-- with the opposite order the second call gives the result of the first -/
example : agglomerateOneLevel (exPlatform.iterating Hash.rev) exSwap' ⟨[], [], []⟩ = (⟨[0, 0, 0, 1, 0, 1, 1, 1], [], []⟩, .ok ()) := by
  decide +kernel

end CoMMA
