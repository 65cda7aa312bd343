import Verif.Props.Rounding
import Verif.Props.NumberingAny
import Verif.Lemmas.NumberingFloat
/-! # C70 whatever the arithmetic -/

set_option linter.unusedSectionVars false

namespace CoMMA

variable {W : Type} [Num W] {σ τ : Nat → Nat}

theorem SameFaceOrder.rows {a a' : Args W} {n : Nat} (hm : ValidMesh a n) (hm' : ValidMesh a' n) (h : SameFaceOrder σ a a') :
    SameRowOrder σ a a' := by
  intro i
  have h1 := congrArg (List.map Prod.fst) (h i)
  rw [(faces_fst (g := graphOf a') hm'.values _).1, List.map_map] at h1
  have h2 := (faces_fst (g := graphOf a) hm.values i).1
  refine h1.trans ?_
  show List.map _ _ = List.map σ (rowOf (graphOf a).rowPtr (graphOf a).colInd i)
  rw [← h2, List.map_map]
  rfl

theorem CallEnv.sizes {P : Platform} {a : Args W} {n : Nat} {E : IsoEnv W (Feats W)} (hm : ValidMesh a n) (hE : CallEnv P a E) :
    E.g.nbC = n ∧ ValidCRS E.g.nbC E.g.rowPtr E.g.colInd ∧ MeshSizes E.g := by
  have hn : E.g.nbC = n := by rw [hE.cells, hm.crs.rows]; rfl
  refine ⟨hn, by rw [hn, hE.rowPtr, hE.colInd]; exact hm.crs, ?_, ?_, ?_, ?_, ?_⟩
  · rw [hE.nBnd, List.length_map, hn, hm.bnd]
  · rw [hE.volumes, hn, hm.volumes]
  · rw [hE.centers, hn, hm.centers]
  · rw [hE.values, hE.colInd, hm.values]
  · rw [hE.centers]; exact hm.coords

theorem CallEnv.sameGraph {P : Platform} {a a' : Args W} {n : Nat} {E E' : IsoEnv W (Feats W)} (hm : ValidMesh a n) (hm' : ValidMesh a' n)
    (h : Renumbering σ τ) (hr : Renumbered σ a a') (hf : SameFaceOrder σ a a') (hE : CallEnv P a E) (hE' : CallEnv P a' E')
    (hi : ImgEnv σ E E') : SameGraph σ E.g E'.g := by
  obtain ⟨h1, h2, h3⟩ := hE.sizes hm
  obtain ⟨h1', h2', h3'⟩ := hE'.sizes hm'
  refine ⟨hi.graph, fun i => ?_, h2, h2', h3, h3', fun x => by rw [h1, h1']; exact hr.range h hm hm' x⟩
  have := hf i
  unfold facesOf at this ⊢
  rw [hE.rowPtr, hE.colInd, hE.values, hE'.rowPtr, hE'.colInd, hE'.values]
  exact this

/-- a call as the greedy description has it, for any number type with an order -/
theorem call_greedy {P : Platform} {a : Args W} {o : Outs} {n : Nat} (hm : ValidMesh a n) (hp : ValidParams P a)
    (hW : LawfulLt W) (hu : UniqueRows a.rowPtr a.colInd) (hl : NoSelfLoop a.rowPtr a.colInd)
    (hmode : ValidMode (graphOf a) a o n) (hs : CorrectsSingletons a) :
    ∃ out, agglomerateOneLevel P a o = (out, .ok ()) ∧ DescribedBy P a o n (fun E => GrownGreedily E) (FixedSingles a) out := by
  obtain ⟨c, k, p, idx, lines, gss, hd⟩ := described hm hp hW hu hl hmode
  obtain ⟨f, f0, h1, h2, h3⟩ := hd.fixed hm hp hu hl hs
  exact ⟨_, h1, (C65_greedy hm hp hW hu hl hmode hs _).1 h1⟩

theorem greedy_images {P : Platform} {a a' : Args W} {n : Nat} (hm : ValidMesh a n) (hm' : ValidMesh a' n) (hW : LawfulLt W)
    (h : Renumbering σ τ) (hr : Renumbered σ a a') (hf : SameFaceOrder σ a a') :
    ∀ E E', CallEnv P a E → CallEnv P a' E' → ImgEnv σ E E' → ∀ d d' hi xs, ImgMap σ d d' → GrownGreedily E d hi xs →
      GrownGreedily E' d' hi (xs.map σ) := by
  intro E E' hE hE' hi d d' hi' xs hd hx
  have easp : a'.aspect = a.aspect := (congrArg Args.aspect hr.others :)
  exact GrownGreedily.img h hi (hE.sameGraph hm hm' h hr hf hE' hi) hW hE.ar (by rw [← easp]; exact hE'.ar) hd hx

/-- **C70** (partial) The numbering of the cells does not matter in any arithmetic, rounded or not, as long as the faces of
each cell are listed in the same order: a call without lines gives each cell of the renumbered mesh the same coarse
cell, with the same number. -/
theorem C70_rounded_partial {P : Platform} {a a' : Args W} {o : Outs} {n : Nat} (hm : ValidMesh a n) (hm' : ValidMesh a' n)
    (hp : ValidParams P a) (hW : LawfulLt W) (hu : UniqueRows a.rowPtr a.colInd) (hl : NoSelfLoop a.rowPtr a.colInd)
    (ho : WithoutLines a o) (hs : CorrectsSingletons a) (hb : BoundaryFirst a ∨ ConnectedMesh n a.rowPtr a.colInd)
    (h : Renumbering σ τ) (hr : Renumbered σ a a') (hf : SameFaceOrder σ a a') (hk : KeepsTies σ a.prio) :
    ∃ f f', agglomerateOneLevel P a o = (⟨f, o.linesIdx, o.lines⟩, .ok ()) ∧
      agglomerateOneLevel P a' o = (⟨f', o.linesIdx, o.lines⟩, .ok ()) ∧
      f.length = n ∧ f'.length = n ∧ ∀ i : Nat, f'[σ i]? = f[i]? := by
  have e := hr.others
  have ho' : WithoutLines a' o := by
    unfold WithoutLines
    rw [show a'.isAniso = a.isAniso from (congrArg Args.isAniso e :), show a'.buildLines = a.buildLines from (congrArg Args.buildLines e :)]
    exact ho
  have hp' := hr.params h hm hm' hp
  exact renumbered_call hm hm' hp hs ho hb h hr hk (call_greedy (o := o) hm hp hW hu hl (withoutLines_mode ho) hs)
    (call_greedy (o := o) hm' hp' hW (hr.uniq h hm hm' hu) (hr.noLoop h hm hm' hl) (withoutLines_mode ho') (hr.corrects hs))
    (fun _ _ h1 h2 => h1.unique hW (fun E => determined_greedy hW E) h2) (greedy_images hm hm' hW h hr hf)

/-- **C70** (partial) The same for calls with lines, built or given. -/
theorem C70_rounded_lines_partial {P : Platform} {a a' : Args W} {o o' : Outs} {n : Nat} (hm : ValidMesh a n) (hm' : ValidMesh a' n)
    (hp : ValidParams P a) (hW : LawfulLt W) (heq : ExactEq W) (hu : UniqueRows a.rowPtr a.colInd) (hl : NoSelfLoop a.rowPtr a.colInd)
    (hmode : ValidMode (graphOf a) a o n) (ho : ¬ WithoutLines a o) (hs : CorrectsSingletons a)
    (hb : BoundaryFirst a ∨ ConnectedMesh n a.rowPtr a.colInd)
    (h : Renumbering σ τ) (hr : Renumbered σ a a') (hf : SameFaceOrder σ a a') (hk : KeepsTies σ a.prio) (hlines : SameLines σ a o o') :
    ∃ f f' idx lines, agglomerateOneLevel P a o = (⟨f, idx, lines⟩, .ok ()) ∧
      agglomerateOneLevel P a' o' = (⟨f', idx, lines⟩, .ok ()) ∧
      f.length = n ∧ f'.length = n ∧ ∀ i : Nat, f'[σ i]? = f[i]? := by
  have hp' := hr.params h hm hm' hp
  exact renumbered_lines_call hm hm' hp hW heq hu hl hmode ho hs hb h hr (hf.rows hm hm') hk hlines
    (call_greedy (o := o) hm hp hW hu hl hmode hs)
    (fun hmode' => call_greedy (o := o') hm' hp' hW (hr.uniq h hm hm' hu) (hr.noLoop h hm hm' hl) hmode' (hr.corrects hs))
    (fun _ _ h1 h2 => h1.unique hW (fun E => determined_greedy hW E) h2) (greedy_images hm hm' hW h hr hf)

/-- **C70** (partial) The same with any threshold of correction: the calls have the same possible results. -/
theorem C70_rounded_any_partial {P : Platform} {a a' : Args W} {o : Outs} {n : Nat} (hm : ValidMesh a n) (hm' : ValidMesh a' n)
    (hp : ValidParams P a) (hW : LawfulLt W) (hu : UniqueRows a.rowPtr a.colInd) (hl : NoSelfLoop a.rowPtr a.colInd)
    (ho : WithoutLines a o) (hb : BoundaryFirst a ∨ ConnectedMesh n a.rowPtr a.colInd)
    (h : Renumbering σ τ) (hr : Renumbered σ a a') (hf : SameFaceOrder σ a a') (hk : KeepsTies σ a.prio) (order : Hash) :
    ∃ order' f f', agglomerateOneLevel (P.iterating order) a o = (⟨f, o.linesIdx, o.lines⟩, .ok ()) ∧
      agglomerateOneLevel (P.iterating order') a' o = (⟨f', o.linesIdx, o.lines⟩, .ok ()) ∧
      f.length = n ∧ f'.length = n ∧ ∀ i : Nat, f'[σ i]? = f[i]? := by
  have e := hr.others
  have ew : WithoutLines a' o ↔ WithoutLines a o := by
    unfold WithoutLines
    rw [show a'.isAniso = a.isAniso from (congrArg Args.isAniso e :), show a'.buildLines = a.buildLines from (congrArg Args.buildLines e :)]
  obtain ⟨f0, f0', h1, h2, h3, h4, h5⟩ := C70_rounded_partial (P := P) (o := o) (a := { a with correction := false })
    (a' := { a' with correction := false }) hm.uncorrected hm'.uncorrected hp.uncorrected hW hu hl ho (fun hx => by cases hx) hb h
    hr.uncorrected hf hk
  exact corrected_images hm hm' hp hW hu hl (withoutLines_mode ho) (withoutLines_mode (ew.2 ho)) h hr ew h1 h2
    (fun hx => absurd ho hx) h3 h4 h5 order

/-- **C70** (partial) The same for calls with lines, with any threshold of correction. -/
theorem C70_rounded_lines_any_partial {P : Platform} {a a' : Args W} {o o' : Outs} {n : Nat} (hm : ValidMesh a n) (hm' : ValidMesh a' n)
    (hp : ValidParams P a) (hW : LawfulLt W) (heq : ExactEq W) (hu : UniqueRows a.rowPtr a.colInd) (hl : NoSelfLoop a.rowPtr a.colInd)
    (hmode : ValidMode (graphOf a) a o n) (ho : ¬ WithoutLines a o)
    (hb : BoundaryFirst a ∨ ConnectedMesh n a.rowPtr a.colInd)
    (h : Renumbering σ τ) (hr : Renumbered σ a a') (hf : SameFaceOrder σ a a') (hk : KeepsTies σ a.prio) (hlines : SameLines σ a o o')
    (order : Hash) :
    ∃ order' f f' idx lines, agglomerateOneLevel (P.iterating order) a o = (⟨f, idx, lines⟩, .ok ()) ∧
      agglomerateOneLevel (P.iterating order') a' o' = (⟨f', idx, lines⟩, .ok ()) ∧
      f.length = n ∧ f'.length = n ∧ ∀ i : Nat, f'[σ i]? = f[i]? := by
  obtain ⟨f0, f0', idx, lines, h1, h2, h3, h4, h5⟩ := C70_rounded_lines_partial (P := P) (o := o) (o' := o')
    (a := { a with correction := false }) (a' := { a' with correction := false }) hm.uncorrected hm'.uncorrected hp.uncorrected hW heq hu hl
    hmode.uncorrected ho (fun hx => by cases hx) hb h hr.uncorrected hf hk hlines
  exact corrected_lines_images hm hm' hp hW hu hl hmode ho h hr hk hlines h1 h2 h3 h4 h5 order

theorem dbl_exactEq : ExactEq Dbl := by
  intro x y h
  have := of_decide_eq_true (show decide (x.code = y.code) = true from h)
  cases x; cases y
  simp only at this
  rw [this]

theorem sameFaceOrder_of {a a' : Args W} {n : Nat} (hm : ValidMesh a n) (hm' : ValidMesh a' n) (hn : ∀ x, n ≤ x → n ≤ σ x)
    (h : ∀ i < n, facesOf (graphOf a') (σ i) = (facesOf (graphOf a) i).map (fun e => (σ e.1, e.2))) : SameFaceOrder σ a a' := by
  intro i
  by_cases hi : i < n
  · exact h i hi
  · have out : ∀ {b : Args W} {j : Nat}, ValidMesh b n → n ≤ j → facesOf (graphOf b) j = [] := by
      intro b j hb hj
      unfold facesOf rowOf
      have : (graphOf b).rowPtr[j + 1]? = none := List.getElem?_eq_none (by show b.rowPtr.length ≤ j + 1; rw [hb.crs.rows]; omega)
      rw [this]
      cases (graphOf b).rowPtr[j]? <;> rfl
    rw [out hm' (hn i (by omega)), out hm (by omega), List.map_nil]

/-- Five cells; the two neighbours of cell 0 have faces of the same weights 0.1, 0.2 and 0.3. -/
def exRounds : Args Dbl :=
  { exPairs with
    rowPtr := [0, 2, 5, 8, 10, 12], colInd := [1, 2, 0, 3, 4, 0, 3, 4, 1, 2, 1, 2]
    values := [Dbl.dec 1 1, Dbl.dec 1 1, Dbl.dec 1 1, Dbl.dec 2 1, Dbl.dec 3 1, Dbl.dec 1 1, Dbl.dec 2 1, Dbl.dec 3 1,
      Dbl.dec 2 1, Dbl.dec 2 1, Dbl.dec 3 1, Dbl.dec 3 1]
    volumes := List.replicate 5 (Dbl.dec 1 0), centers := List.replicate 5 [Dbl.dec 0 0, Dbl.dec 0 0]
    prio := [Dbl.dec 5 0, Dbl.dec 4 0, Dbl.dec 3 0, Dbl.dec 2 0, Dbl.dec 1 0]
    nBnd := [1, 0, 0, 0, 0], order := .boundary, aspect := .external }

/-- the neighbours of cell 2 listed the other way round -/
def exRounds' : Args Dbl :=
  { exRounds with
    colInd := [1, 2, 0, 3, 4, 4, 3, 0, 1, 2, 1, 2]
    values := [Dbl.dec 1 1, Dbl.dec 1 1, Dbl.dec 1 1, Dbl.dec 2 1, Dbl.dec 3 1, Dbl.dec 3 1, Dbl.dec 2 1, Dbl.dec 1 1,
      Dbl.dec 2 1, Dbl.dec 2 1, Dbl.dec 3 1, Dbl.dec 3 1] }

theorem exRounds_valid : ValidMesh exRounds 5 where
  pos := by decide
  crs := checkCRS_sound (by decide)
  sym := checkSym_sound (n := 5) (checkCRS_sound (by decide)) (by decide)
  uniq := Or.inr dbl_lawful
  values := rfl
  volumes := rfl
  centers := rfl
  prio := rfl
  bnd := rfl
  coords := ⟨2, by decide⟩

theorem exRounds_valid' : ValidMesh exRounds' 5 where
  pos := by decide
  crs := checkCRS_sound (by decide)
  sym := checkSym_sound (n := 5) (checkCRS_sound (by decide)) (by decide)
  uniq := Or.inr dbl_lawful
  values := rfl
  volumes := rfl
  centers := rfl
  prio := rfl
  bnd := rfl
  coords := ⟨2, by decide⟩

theorem exRounds_params : ValidParams exPlatform exRounds :=
  ⟨by decide, by decide, by decide, by decide, by decide, by decide, by decide, by decide, by decide⟩

/-- cells 1 and 3 of the mesh swapped -/
def exRoundsSwap : Args Dbl :=
  { exRounds with
    rowPtr := [0, 2, 4, 7, 10, 12], colInd := [3, 2, 3, 2, 0, 1, 4, 0, 1, 4, 3, 2]
    values := [Dbl.dec 1 1, Dbl.dec 1 1, Dbl.dec 2 1, Dbl.dec 2 1, Dbl.dec 1 1, Dbl.dec 2 1, Dbl.dec 3 1, Dbl.dec 1 1, Dbl.dec 2 1, Dbl.dec 3 1,
      Dbl.dec 3 1, Dbl.dec 3 1]
    prio := [Dbl.dec 5 0, Dbl.dec 2 0, Dbl.dec 3 0, Dbl.dec 4 0, Dbl.dec 1 0] }

theorem exRoundsSwap_valid : ValidMesh exRoundsSwap 5 where
  pos := by decide
  crs := checkCRS_sound (by decide)
  sym := checkSym_sound (n := 5) (checkCRS_sound (by decide)) (by decide)
  uniq := Or.inr dbl_lawful
  values := rfl
  volumes := rfl
  centers := rfl
  prio := rfl
  bnd := rfl
  coords := ⟨2, by decide⟩

theorem keepsTies_nodup {prio : List W} (h : prio.Nodup) : KeepsTies σ prio := by
  intro i j w hi hj hij
  obtain ⟨h1, e1⟩ := List.getElem?_eq_some_iff.1 hi
  obtain ⟨h2, e2⟩ := List.getElem?_eq_some_iff.1 hj
  have := (h.getElem_inj_iff (hi := h1) (hj := h2)).1 (by rw [e1, e2])
  omega

theorem exRounds_crs : ValidCRS 5 exRounds.rowPtr exRounds.colInd := checkCRS_sound (by decide)

example := C70_rounded_partial (o := ⟨[], [], []⟩) exRounds_valid exRoundsSwap_valid exRounds_params dbl_lawful
  (checkUniq_sound exRounds_crs (by decide)) (checkNoLoop_sound exRounds_crs (by decide)) (Or.inl rfl) (fun h => absurd h (by decide))
  (Or.inl (Or.inl rfl)) (swap_renumbering 1 3)
  (Renumbered.of_cells exRounds_valid exRoundsSwap_valid (swap_out (by decide) (by decide)) (by decide) (by decide) (by decide) rfl)
  (sameFaceOrder_of exRounds_valid exRoundsSwap_valid (swap_out (by decide) (by decide)) (by decide)) (keepsTies_nodup (by decide))

/-- the same coarse cells -/
example : agglomerateOneLevel exPlatform exRoundsSwap ⟨[], [], []⟩ = (⟨[0, 1, 1, 0, 2], [], []⟩, .ok ()) := by decide +kernel

example (order : Hash) := C70_rounded_any_partial (o := ⟨[], [], []⟩) exRounds_valid exRoundsSwap_valid exRounds_params dbl_lawful
  (checkUniq_sound exRounds_crs (by decide)) (checkNoLoop_sound exRounds_crs (by decide)) (Or.inl rfl)
  (Or.inl (Or.inl rfl)) (swap_renumbering 1 3)
  (Renumbered.of_cells exRounds_valid exRoundsSwap_valid (swap_out (by decide) (by decide)) (by decide) (by decide) (by decide) rfl)
  (sameFaceOrder_of exRounds_valid exRoundsSwap_valid (swap_out (by decide) (by decide)) (by decide)) (keepsTies_nodup (by decide)) order

/-- the mesh with the line of the cells 0 and 1 -/
def exRoundsLine (a : Args Dbl) : Args Dbl := { a with isAniso := true, maxCells := some 2 }

theorem exRoundsLine_gives : GivesLines (exRoundsLine exRounds) ⟨[], [0, 2], [0, 1]⟩ 5 [[0, 1]] where
  on := rfl
  build := rfl
  enc := ⟨rfl, rfl⟩
  data := by decide
  disjoint := by decide
  range := by decide

example := C70_rounded_lines_partial (P := exPlatform) (a := exRoundsLine exRounds) (a' := exRoundsLine exRoundsSwap)
  (o := ⟨[], [0, 2], [0, 1]⟩) (o' := ⟨[], [0, 2], [0, 3]⟩)
  { exRounds_valid with } { exRoundsSwap_valid with }
  ⟨by decide, by decide, by decide, by decide, by decide, by decide, by decide, by decide, by decide⟩ dbl_lawful dbl_exactEq
  (checkUniq_sound exRounds_crs (by decide)) (checkNoLoop_sound exRounds_crs (by decide))
  ⟨Or.inr (Or.inr ⟨_, exRoundsLine_gives⟩), fun _ _ => by intro l _ m h; cases h; omega⟩
  (by rintro (h | ⟨_, h | h⟩) <;> revert h <;> decide) (fun h => absurd h (by decide))
  (Or.inl (Or.inl rfl)) (swap_renumbering 1 3)
  (Renumbered.of_cells { exRounds_valid with } { exRoundsSwap_valid with } (swap_out (by decide) (by decide)) (by decide) (by decide) (by decide) rfl)
  (sameFaceOrder_of { exRounds_valid with } { exRoundsSwap_valid with } (swap_out (by decide) (by decide)) (by decide)) (keepsTies_nodup (by decide))
  (Or.inr ⟨rfl, rfl, by decide⟩)

example (order : Hash) := C70_rounded_lines_any_partial (P := exPlatform) (a := exRoundsLine exRounds) (a' := exRoundsLine exRoundsSwap)
  (o := ⟨[], [0, 2], [0, 1]⟩) (o' := ⟨[], [0, 2], [0, 3]⟩)
  { exRounds_valid with } { exRoundsSwap_valid with }
  ⟨by decide, by decide, by decide, by decide, by decide, by decide, by decide, by decide, by decide⟩ dbl_lawful dbl_exactEq
  (checkUniq_sound exRounds_crs (by decide)) (checkNoLoop_sound exRounds_crs (by decide))
  ⟨Or.inr (Or.inr ⟨_, exRoundsLine_gives⟩), fun _ _ => by intro l _ m h; cases h; omega⟩
  (by rintro (h | ⟨_, h | h⟩) <;> revert h <;> decide)
  (Or.inl (Or.inl rfl)) (swap_renumbering 1 3)
  (Renumbered.of_cells { exRounds_valid with } { exRoundsSwap_valid with } (swap_out (by decide) (by decide)) (by decide) (by decide) (by decide) rfl)
  (sameFaceOrder_of { exRounds_valid with } { exRoundsSwap_valid with } (swap_out (by decide) (by decide)) (by decide)) (keepsTies_nodup (by decide))
  (Or.inr ⟨rfl, rfl, by decide⟩) order

/-- **C70 fails in double precision**: the cells keep their numbers and their priorities are different; only the
neighbours of cell 2 are listed in another order.  The sum 0.1 + 0.2 + 0.3 is larger than 0.3 + 0.2 + 0.1, and cell 0 is put together
with another cell. -/
theorem C70_rounding_counterexample :
    ValidMesh exRounds 5 ∧ ValidMesh exRounds' 5 ∧ ValidParams exPlatform exRounds ∧ Renumbered id exRounds exRounds' ∧
      BoundaryFirst exRounds ∧ CorrectsSingletons exRounds ∧ exRounds.prio.Nodup ∧
      agglomerateOneLevel exPlatform exRounds ⟨[], [], []⟩ = (⟨[0, 0, 1, 1, 2], [], []⟩, .ok ()) ∧
      agglomerateOneLevel exPlatform exRounds' ⟨[], [], []⟩ = (⟨[0, 1, 0, 1, 2], [], []⟩, .ok ()) := by
  refine ⟨exRounds_valid, exRounds_valid', exRounds_params, ?_, Or.inl rfl, fun h => absurd h (by decide), by decide, by decide +kernel, by decide +kernel⟩
  exact Renumbered.of_cells exRounds_valid exRounds_valid' (fun x hx => hx) (by decide) (by decide) (by decide) rfl

end CoMMA
