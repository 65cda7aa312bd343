import Verif.Props.AnyOrder
import Verif.Props.Overflow
import Verif.Props.NumberingAny
/-! # Every kind of call at once

The theorems about calls without lines, with lines built by the call and with lines given by the
caller, put together.  The lines are described by `TakesLines` (`Spec/WholeCall.lean`): nothing here
refers to how the program computes them. -/

set_option linter.unusedSectionVars false

namespace CoMMA

variable {W : Type} [Num W]

/-- the lines described by the specification are those of the program -/
theorem ValidMode.fineLines {g : Graph W} (hW : LawfulLt W) (P : Platform) {a : Args W} {o : Outs} {n : Nat} (hm : ValidMesh a n)
    (hl : NoSelfLoop a.rowPtr a.colInd) (hmode : ValidMode g a o n) (hg : g = graphOf a) :
    WithoutLines a o ∨
    (BuildsLines a n ∧ ∃ fls, CoMMA.fineLines P a o = .ok fls ∧ TakesLines g a o n fls ∧ FitsLimit a fls) ∨
    ∃ ls, GivesLines a o n ls ∧ FitsLimit a (ls.filter (fun l => decide (1 < l.length))) := by
  subst hg
  rcases hmode.mode with h | ⟨hb, hnn⟩ | ⟨ls, hg⟩
  · exact Or.inl h
  · obtain ⟨fls, seeds, h1, h2, h3, h4, h5⟩ := C48_call hW (P := P) (o := o) hm hb hl hnn
    exact Or.inr (Or.inl ⟨hb, fls, h1, .built hb h2 h3 h4 h5, hmode.fits _ (.built hb h2 h3 h4 h5)⟩)
  · exact Or.inr (Or.inr ⟨ls, hg, hmode.fits _ (.given hg)⟩)

theorem ValidMode.kinds (hW : LawfulLt W) (P : Platform) {a : Args W} {o : Outs} {n : Nat} (hm : ValidMesh a n)
    (hl : NoSelfLoop a.rowPtr a.colInd) (hmode : ValidMode (graphOf a) a o n) :
    WithoutLines a o ∨ (BuildsLines a n ∧ ∀ fls, CoMMA.fineLines P a o = .ok fls → FitsLimit a fls) ∨
    ∃ ls, GivesLines a o n ls ∧ FitsLimit a (ls.filter (fun l => decide (1 < l.length))) := by
  rcases hmode.fineLines hW P hm hl rfl with h | ⟨hb, fls, h1, _, h3⟩ | h
  · exact Or.inl h
  · refine Or.inr (Or.inl ⟨hb, fun fls' h' => ?_⟩)
    rw [h1] at h'; cases h'; exact h3
  · exact Or.inr (Or.inr h)

theorem ValidMode.withLines (hW : LawfulLt W) (P : Platform) {a : Args W} {o : Outs} {n : Nat} (hm : ValidMesh a n)
    (hl : NoSelfLoop a.rowPtr a.colInd) (hmode : ValidMode (graphOf a) a o n) (ho : ¬ WithoutLines a o) :
    ∃ ls, (BuildsLines a n ∧ ∀ fls, CoMMA.fineLines P a o = .ok fls → FitsLimit a fls) ∨
      (GivesLines a o n ls ∧ FitsLimit a (ls.filter (fun l => decide (1 < l.length)))) := by
  rcases hmode.kinds hW P hm hl with h | h | ⟨ls, h⟩
  · exact absurd h ho
  · exact ⟨[], Or.inl h⟩
  · exact ⟨ls, Or.inr h⟩

/-- **C40** (every call with lines) The call takes lines (those the caller gives, or those grown
from the compliant anisotropic cells), returns normally, and its result is as `AnisoResult` says. -/
theorem C40_call (hW : LawfulLt W) {P : Platform} {a : Args W} {o : Outs} {n : Nat} (hm : ValidMesh a n) (hp : ValidParams P a)
    (hs : CorrectsSingletons a) (hl : NoSelfLoop a.rowPtr a.colInd) (hmode : ValidMode (graphOf a) a o n)
    (ho : ¬ WithoutLines a o) :
    ∃ fls out, TakesLines (graphOf a) a o n fls ∧ agglomerateOneLevel P a o = (out, .ok ()) ∧ AnisoResult a n fls out := by
  rcases hmode.fineLines hW P hm hl rfl with h | ⟨hb, fls, h1, h2, h3⟩ | ⟨ls, hg, h3⟩
  · exact absurd h ho
  · obtain ⟨fls', out, e1, e2, e3, _⟩ := C40_built hW hm hp hs hb (fun fls' h' => by rw [h1] at h'; cases h'; exact h3)
    rw [h1] at e1; cases e1
    exact ⟨fls, out, h2, e2, e3⟩
  · obtain ⟨out, e2, e3⟩ := C40_given hm hp hs hg h3
    exact ⟨_, out, .given hg, e2, e3⟩

/-- **C11** (every call with lines) Correction does not touch the coarse cells of the lines. -/
theorem C11_call (hW : LawfulLt W) {P : Platform} {a : Args W} {o : Outs} {n : Nat} (hm : ValidMesh a n) (hp : ValidParams P a)
    (hcor : a.correction = true) (hs : CorrectsSingletons a) (hl : NoSelfLoop a.rowPtr a.colInd)
    (hmode : ValidMode (graphOf a) a o n) (ho : ¬ WithoutLines a o) :
    ∃ f f0 idx lines, agglomerateOneLevel P a o = (⟨f, idx, lines⟩, .ok ()) ∧
      agglomerateOneLevel P { a with correction := false } o = (⟨f0, idx, lines⟩, .ok ()) ∧
      ∀ k ∈ lines, ∀ i : Nat, f[i]? = some k ↔ f0[i]? = some k := by
  obtain ⟨ls, h⟩ := hmode.withLines hW P hm hl ho
  exact C11_lines_kept hm hp hcor hs h

/-- **C39** (every call with lines) The corrected vector is obtained from the uncorrected one as
`CorrectionOf` says; the coarse cells of the lines are the first ones. -/
theorem C39_call (hW : LawfulLt W) {P : Platform} {a : Args W} {o : Outs} {n : Nat} (hm : ValidMesh a n) (hp : ValidParams P a)
    (hcor : a.correction = true) (hs : CorrectsSingletons a) (hu : UniqueRows a.rowPtr a.colInd)
    (hl : NoSelfLoop a.rowPtr a.colInd) (hmode : ValidMode (graphOf a) a o n) (ho : ¬ WithoutLines a o) :
    ∃ f f0 idx lines, agglomerateOneLevel P a o = (⟨f, idx, lines⟩, .ok ()) ∧
      agglomerateOneLevel P { a with correction := false } o = (⟨f0, idx, lines⟩, .ok ()) ∧
      lines = List.range lines.length ∧ CorrectionOf a.rowPtr a.colInd lines.length f0 f := by
  obtain ⟨ls, h⟩ := hmode.withLines hW P hm hl ho
  exact C39_anisotropic hm hp hcor hs hu hl h

/-- **C56** (every call with lines, any threshold) The corrected vector is obtained from the
uncorrected one as `SmallCorrectionOf` says, and coarse cells above the limit stay together. -/
theorem C56_call (hW : LawfulLt W) {P : Platform} {a : Args W} {o : Outs} {n : Nat} (hm : ValidMesh a n) (hp : ValidParams P a)
    (hcor : a.correction = true) (hu : UniqueRows a.rowPtr a.colInd) (hl : NoSelfLoop a.rowPtr a.colInd)
    (hmode : ValidMode (graphOf a) a o n) (ho : ¬ WithoutLines a o) :
    ∃ f f0 idx lines, agglomerateOneLevel P a o = (⟨f, idx, lines⟩, .ok ()) ∧
      agglomerateOneLevel P { a with correction := false } o = (⟨f0, idx, lines⟩, .ok ()) ∧
      lines = List.range lines.length ∧ SmallCorrectionOf a.rowPtr a.colInd lines.length (sizeLimit a) f0 f ∧
      KeepsLarge lines.length (sizeLimit a) f0 f := by
  obtain ⟨ls, h⟩ := hmode.withLines hW P hm hl ho
  obtain ⟨f, f0, idx, lines, h1, h2, h3, h4⟩ := C56_anisotropic hm hp hcor hu hl h
  obtain ⟨f', f0', idx', lines', g1, g2, _, _, g5⟩ := C12_large_anisotropic_partial hm hp hcor h
  rw [h1] at g1; cases g1
  rw [h2] at g2; cases g2
  exact ⟨f, f0, idx, lines, h1, h2, h3, h4, g5⟩

/-- **C30** (every call) If correction is off or only for single cells, no output depends on
the order in which unordered containers are iterated, even if it changes during the call. -/
theorem C30_call (hW : LawfulLt W) {P : Platform} {a : Args W} {o : Outs} {n : Nat} (hm : ValidMesh a n) (hp : ValidParams P a)
    (hs : CorrectsSingletons a) (hl : NoSelfLoop a.rowPtr a.colInd) (hmode : ValidMode (graphOf a) a o n) :
    (∀ h, agglomerateOneLevel (P.iterating h) a o = agglomerateOneLevel P a o) ∧
      ∀ Ω, agglomerateHistory Ω P a o = agglomerateOneLevel P a o := by
  rcases hmode.kinds hW P hm hl with h | ⟨hb, hno⟩ | ⟨ls, hg, hno⟩
  · exact ⟨C30_isotropic hW hm hp hs h, C30_isotropic_history hW hm hp hs h⟩
  · exact ⟨C30_built hW hm hp hs hb hno, C30_built_history hW hm hp hs hb hno⟩
  · exact ⟨C30_given hW hm hp hs hg hno, C30_given_history hW hm hp hs hg hno⟩

/-- **C30** (every call, any threshold) Orders that change during the call have the effect of one
order. -/
theorem C30_call_one_order (hW : LawfulLt W) {P : Platform} {a : Args W} {o : Outs} {n : Nat} (hm : ValidMesh a n)
    (hp : ValidParams P a) (hl : NoSelfLoop a.rowPtr a.colInd) (hmode : ValidMode (graphOf a) a o n) (Ω : Nat → Hash) :
    ∃ h, agglomerateHistory Ω P a o = agglomerateOneLevel (P.iterating h) a o := by
  rcases hmode.kinds hW P hm hl with h | ⟨hb, hno⟩ | ⟨ls, hg, hno⟩
  · exact C30_isotropic_one_order hW hm hp h Ω
  · exact C30_built_one_order hW hm hp hb hno Ω
  · exact C30_given_one_order hW hm hp hg hno Ω

/-- **C72** (every call) No signed integer overflows if the integers of the arguments and the sizes fit. -/
theorem C72_call (hW : LawfulLt W) {P : Platform} {a : Args W} {o : Outs} {n : Nat} (hm : ValidMesh a n) (hp : ValidParams P a)
    (hi : HoldsInts P a n) (hl : NoSelfLoop a.rowPtr a.colInd) (hmode : ValidMode (graphOf a) a o n) :
    agglomerateBounded P a o = agglomerateOneLevel P a o :=
  C72_no_overflow hm hp hi (hmode.kinds hW P hm hl)

/-! ## Concrete cases -/

theorem exBuild_withLines (o : Outs) : ¬ WithoutLines exBuild o := withLines_iff.2 rfl

theorem exGiven_withLines : ¬ WithoutLines exGiven exGivenOuts := withLines_iff.2 (by decide)

example (o : Outs) := C40_call (P := exPlatform) exLawful exBuild_valid exBuild_params (fun _ => Or.inl rfl) exCols_noLoop (exBuild_mode o)
  (exBuild_withLines o)
example := C40_call (P := exPlatform) exLawful exGiven_valid exGiven_params (fun _ => Or.inl rfl)
  (checkNoLoop_sound exGiven_crs (by decide)) exGiven_mode exGiven_withLines
example := C11_call (P := exPlatform) exLawful exGiven_valid exGiven_params rfl (fun _ => Or.inl rfl)
  (checkNoLoop_sound exGiven_crs (by decide)) exGiven_mode exGiven_withLines
example := C39_call (P := exPlatform) exLawful exGiven_valid exGiven_params rfl (fun _ => Or.inl rfl)
  (checkUniq_sound exGiven_crs (by decide)) (checkNoLoop_sound exGiven_crs (by decide)) exGiven_mode exGiven_withLines
example := C56_call (P := exPlatform) exLawful exGiven_valid exGiven_params rfl
  (checkUniq_sound exGiven_crs (by decide)) (checkNoLoop_sound exGiven_crs (by decide)) exGiven_mode exGiven_withLines
example (o : Outs) := C30_call (P := exPlatform) exLawful exBuild_valid exBuild_params (fun _ => Or.inl rfl) exCols_noLoop (exBuild_mode o)
example (o : Outs) := C30_call_one_order (P := exPlatform) exLawful exBuild_valid exBuild_params exCols_noLoop (exBuild_mode o) exOrders
example (o : Outs) := C72_call exLawful exBuild_valid exBuild_params exBuild_ints exCols_noLoop (exBuild_mode o)

end CoMMA
