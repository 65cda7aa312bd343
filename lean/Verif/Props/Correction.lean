import Verif.Lemmas.CorrectionExact
import Verif.Props.Anisotropic
/-! # C39: what correction of single cells does, exactly -/

set_option linter.unusedSectionVars false

namespace CoMMA

variable {W : Type} [Num W]

theorem Start.exact {P : Platform} {a : Args W} {o : Outs} {n : Nat} (hm : ValidMesh a n) (hp : ValidParams P a)
    (hcor : a.correction = true) (hs : CorrectsSingletons a) (hu : UniqueRows a.rowPtr a.colInd)
    (hl : NoSelfLoop a.rowPtr a.colInd) {c : PoolCfg W} {k : Cont} {p : Pool} {idx lines : List Nat}
    (h : Start P a o c n k p idx lines) :
    ∃ f f0 : List Nat, agglomerateOneLevel P a o = (⟨f, idx, lines⟩, .ok ()) ∧
      agglomerateOneLevel P { a with correction := false } o = (⟨f0, idx, lines⟩, .ok ()) ∧
      CorrectionOf a.rowPtr a.colInd k.counter f0 f := by
  have hn := graphOf_nbC hm
  have hcrs : ValidCRS (graphOf a).nbC (graphOf a).rowPtr (graphOf a).colInd := by rw [hn]; exact hm.crs
  obtain ⟨k1, p1, hg⟩ := grown_ok hm hp h
  obtain ⟨f, k2, N, h1, h2, h3, h4, h5⟩ := run_corrected hm hp h hg hcor (hs hcor)
  have hg' : Grown P a.uncorrected o n k c p p1 k1 := ⟨hg.eq, hg.inv, hg.all⟩
  obtain ⟨f0, g1, g2, g3, g5⟩ := run_plain hp.uncorrected h.uncorrected hm.uncorrected hg' rfl
  have hci : CInv n k1 := by have := hg.inv.cinv; rwa [show (isoEnvOf P a c).g.nbC = n from hn] at this
  have hk2 : k1.correct (graphOf a) P.hash = .ok k2 := by
    unfold isoPhase at h5
    rw [decide_eq_true hp.aspect, checkArg_true, ok_bind, hg.eq, ok_bind] at h5
    unfold correctIf at h5
    rw [hcor] at h5
    exact h5
  have ht : k1.thresh = 1 := by
    rw [hg.inv.thresh, h.thresh]
    unfold effThresh
    have := hp.minCard
    have := hp.thresh
    have := hs hcor
    split <;> omega
  have hE : ExactEnv (graphOf a) k1 k.counter := by
    refine ⟨hcrs, hm.sym, hu, hl, by rw [hn]; exact hci, ht, ?_⟩
    intro j cc hj
    constructor
    · intro hi
      by_contra hlt
      rw [hg.inv.old j (by omega)] at hj
      rw [h.aniso j cc hj] at hi; cases hi
    · intro hle
      exact (hg.inv.iso j cc hle hj).1
  obtain ⟨f', hf', hc⟩ := (correct_exact hE P.hash (by
      intro j cc hf hiso
      by_cases hj : k.counter ≤ j
      · obtain ⟨_, hgood⟩ := hg.inv.iso j cc hj hf
        exact ⟨hgood.conn, hgood.compact⟩
      · rw [hg.inv.old j (by omega)] at hf
        rw [h.aniso j cc hf] at hiso; cases hiso) (by
      intro i hi
      rw [hn] at hi
      exact hci.complete hg.all hi) (f := f0) ⟨by rw [hn]; exact g2, g3⟩).elim hk2
  have : f = f' := by
    apply List.ext_getElem?
    intro i
    apply Option.ext
    intro j
    rw [h3, hf'.get]
  subst this
  exact ⟨f, f0, h1, g1, hc⟩

/-- **C39** (isotropic calls, no repeated neighbour and no self loop) The corrected result
comes from the uncorrected one by treating the single cells by increasing index.  A coarse
cell that still has one fine cell `x` gives it to the best neighbouring coarse cell: first
those whose compactness increases, then most faces in common with `x`, then fewest cells,
then smallest index.  Finally the indices are renumbered in order. -/
theorem C39_isotropic {P : Platform} {a : Args W} {o : Outs} {n : Nat} (hm : ValidMesh a n) (hp : ValidParams P a)
    (hcor : a.correction = true) (hs : CorrectsSingletons a) (hu : UniqueRows a.rowPtr a.colInd)
    (hl : NoSelfLoop a.rowPtr a.colInd) (hoff : WithoutLines a o) :
    ∃ f f0 : List Nat, agglomerateOneLevel P a o = (⟨f, o.linesIdx, o.lines⟩, .ok ()) ∧
      agglomerateOneLevel P { a with correction := false } o = (⟨f0, o.linesIdx, o.lines⟩, .ok ()) ∧
      CorrectionOf a.rowPtr a.colInd 0 f0 f := by
  obtain ⟨c, k, p, h, rfl⟩ := start_iso hm hp hoff
  exact h.exact hm hp hcor hs hu hl

/-- **C39** (anisotropic calls) The same; coarse cells on lines, which have the first indices,
neither give nor receive cells. -/
theorem C39_anisotropic {P : Platform} {a : Args W} {o : Outs} {n : Nat} (hm : ValidMesh a n) (hp : ValidParams P a)
    (hcor : a.correction = true) (hs : CorrectsSingletons a) (hu : UniqueRows a.rowPtr a.colInd)
    (hl : NoSelfLoop a.rowPtr a.colInd) {ls : List (List Nat)}
    (hb : (BuildsLines a n ∧ ∀ fls, fineLines P a o = .ok fls → FitsLimit a fls) ∨
      (GivesLines a o n ls ∧ FitsLimit a (ls.filter (fun l => decide (1 < l.length))))) :
    ∃ f f0 idx lines, agglomerateOneLevel P a o = (⟨f, idx, lines⟩, .ok ()) ∧
      agglomerateOneLevel P { a with correction := false } o = (⟨f0, idx, lines⟩, .ok ()) ∧
      lines = List.range lines.length ∧ CorrectionOf a.rowPtr a.colInd lines.length f0 f := by
  have key : ∀ {fls : List (List Nat)} {c : PoolCfg W} {k : Cont} {p : Pool} {cls : List (List Nat)} {gss : List (List (List Nat))},
      AnisoStart P a o n fls c k p cls gss → ∃ f f0 idx lines, agglomerateOneLevel P a o = (⟨f, idx, lines⟩, .ok ()) ∧
      agglomerateOneLevel P { a with correction := false } o = (⟨f0, idx, lines⟩, .ok ()) ∧
      lines = List.range lines.length ∧ CorrectionOf a.rowPtr a.colInd lines.length f0 f := by
    intro fls c k p cls gss h
    obtain ⟨f, f0, h1, h2, h3⟩ := h.start.exact hm hp hcor hs hu hl
    have e1 : (exportLines cls).2 = cls.flatten := by
      by_cases hc : cls = []
      · subst hc; rfl
      · rw [exportLines_eq hc]
    have e2 := h.done.all
    have e3 := h.done.made.counter
    have e4 : (Cont.new n (effThresh a).toNat).counter = 0 := rfl
    simp only at e2 e3
    rw [e4] at e2 e3
    have e5 : (exportLines cls).2.length = k.counter := by rw [e1, e2, List.length_range']; omega
    refine ⟨f, f0, _, _, h1, h2, ?_, by rw [e5]; exact h3⟩
    rw [e5, e1, e2, List.range_eq_range']
    congr 1
    omega
  rcases hb with ⟨hb, hno⟩ | ⟨hb, hno⟩
  · obtain ⟨fls, h1, _⟩ := fineLines_build (P := P) (o := o) hm hb
    obtain ⟨c, k, p, cls, gss, h⟩ := built_start hm hp hb h1 (hno fls h1)
    exact key h
  · obtain ⟨c, k, p, cls, gss, h⟩ := given_start hm hp hb hno
    exact key h

/-! ## Concrete cases -/

theorem exArgs_uniq : UniqueRows exArgs.rowPtr exArgs.colInd := checkUniq_sound exArgs_crs (by decide)
theorem exArgs_noLoop : NoSelfLoop exArgs.rowPtr exArgs.colInd := checkNoLoop_sound exArgs_crs (by decide)

example := C39_isotropic (P := exPlatform) (o := ⟨[], [], []⟩) exArgs_valid exArgs_params rfl exArgs_sing exArgs_uniq
  exArgs_noLoop (Or.inl rfl)
example := C39_anisotropic exGiven_valid exGiven_params rfl (fun _ => Or.inl rfl)
  (checkUniq_sound exGiven_crs (by decide)) (checkNoLoop_sound exGiven_crs (by decide))
  (Or.inr ⟨exGiven_lines, by intro l _ m h; cases h⟩)

/-- on the path `0 1 2` with coarse cells `{0, 1}` and `{2}`, cell 2 joins coarse cell 0 -/
example : CorrectionOf [0, 1, 3, 4] [1, 0, 2, 1] 0 [0, 0, 1] [0, 0, 0] := by
  refine ⟨2, [0, 0, 0], by decide, ?_, by decide⟩
  have hs : singlesOf [0, 0, 1] 0 2 = [1] := by decide
  rw [hs]
  refine .merged (x := 2) (r := 0) rfl rfl ⟨⟨by decide, Nat.le_refl 0, 1, ⟨3, 4, 3, rfl, rfl, by decide, by decide, rfl⟩, rfl⟩, ?_⟩ .done
  rintro s ⟨h1, _, y, ⟨b, e, k, hb, he, hbk, hke, hy⟩, h2⟩
  have : b = 3 := by simpa using hb.symm
  have : e = 4 := by simpa using he.symm
  have hk : k = 3 := by omega
  subst hk
  have : y = 1 := by simpa using hy.symm
  subst this
  have : s = 0 := by simpa using h2.symm
  subst this
  exact Or.inr ⟨Iff.rfl, Or.inr ⟨rfl, Or.inr ⟨rfl, Nat.le_refl _⟩⟩⟩

end CoMMA
