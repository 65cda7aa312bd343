import Verif.Lemmas.HashTag
import Verif.Props.Threshold
import Verif.Props.Anisotropic
/-! # C30: the result does not depend on the iteration order of unordered containers -/

set_option linter.unusedSectionVars false

namespace CoMMA

variable {W : Type} [Num W]

/-- the same machine and library, but unordered containers are iterated in another order -/
def Platform.iterating (P : Platform) (h : Hash) : Platform := { P with hash := h }

theorem isoEnvOf_hash (hW : LawfulLt W) (P : Platform) (h : Hash) (a : Args W) (c : PoolCfg W) :
    isoEnvOf (P.iterating h) a c = (isoEnvOf P a c).withHash h := by
  unfold isoEnvOf IsoEnv.withHash Platform.iterating
  simp only [arOf_hash hW (graphOf a) P.hash h]

/-- the call, once the lines are known not to depend on the order -/
theorem Start.hash (hW : LawfulLt W) {P : Platform} {a : Args W} {o : Outs} {n : Nat} (hm : ValidMesh a n)
    (hp : ValidParams P a) (hs : CorrectsSingletons a) (h : Hash) {c : PoolCfg W} {k : Cont} {p : Pool} {idx lines : List Nat}
    (hst : Start P a o c n k p idx lines) (hl : anisoPhase (P.iterating h) a o c = anisoPhase P a o c) :
    agglomerateOneLevel (P.iterating h) a o = agglomerateOneLevel P a o := by
  obtain ⟨k1, p1, hg⟩ := grown_ok hm hp hst
  have hiso : isoPhase (P.iterating h) a c k p = isoPhase P a c k p := by
    unfold isoPhase
    rw [isoEnvOf_hash hW, isoRun_hash hW, hg.eq]
    have : correctIf (P.iterating h) a k1 = correctIf P a k1 := by
      unfold correctIf
      split
      · rename_i hcor
        have hn := graphOf_nbC hm
        have hcrs : ValidCRS (graphOf a).nbC (graphOf a).rowPtr (graphOf a).colInd := by rw [hn]; exact hm.crs
        have ht : k1.thresh = 1 := by
          rw [hg.inv.thresh, hst.thresh]
          unfold effThresh
          have := hp.minCard
          have := hp.thresh
          have := hs hcor
          split <;> omega
        have hci : CInv n k1 := by
          have := hg.inv.cinv
          rwa [show (isoEnvOf P a c).g.nbC = n from hn] at this
        refine correct_hash hcrs _ _ (absorbs_sound hcrs hm.sym) hg.inv.cinv ht ?_ ?_
        · intro j cc hf hi
          by_cases hj : k.counter ≤ j
          · obtain ⟨_, hgood⟩ := hg.inv.iso j cc hj hf
            exact ⟨hgood.conn, hgood.compact⟩
          · rw [hg.inv.old j (by omega)] at hf
            rw [hst.aniso j cc hf] at hi; cases hi
        · intro i hi
          rw [hn] at hi
          exact hci.complete hg.all hi
      · rfl
    simp only [ok_bind, this]
  unfold agglomerateOneLevel
  rw [show checkAll (P.iterating h) a o = checkAll P a o from rfl, hst.check]
  simp only
  unfold runPhases
  rw [hl, hst.eq]
  simp only
  rw [hiso]

/-- **C30** (isotropic calls) If weights are totally ordered and correction only treats single
cells, all outputs are the same whatever the order in which unordered containers are
iterated. -/
theorem C30_isotropic (hW : LawfulLt W) {P : Platform} {a : Args W} {o : Outs} {n : Nat} (hm : ValidMesh a n)
    (hp : ValidParams P a) (hs : CorrectsSingletons a) (hoff : WithoutLines a o) (h : Hash) :
    agglomerateOneLevel (P.iterating h) a o = agglomerateOneLevel P a o := by
  obtain ⟨c, k, p, hst, _⟩ := start_iso hm hp hoff
  refine hst.hash hW hm hp hs h ?_
  unfold anisoPhase
  rw [withoutLines_iff.1 hoff]
  rfl

/-- **C30** (calls that build lines) The same, lines included. -/
theorem C30_built (hW : LawfulLt W) {P : Platform} {a : Args W} {o : Outs} {n : Nat} (hm : ValidMesh a n)
    (hp : ValidParams P a) (hs : CorrectsSingletons a) (hb : BuildsLines a n)
    (hno : ∀ fls, fineLines P a o = .ok fls → FitsLimit a fls) (h : Hash) :
    agglomerateOneLevel (P.iterating h) a o = agglomerateOneLevel P a o := by
  obtain ⟨fls, h1, _⟩ := fineLines_build (P := P) (o := o) hm hb
  obtain ⟨c, k, p, cls, gss, hst⟩ := built_start hm hp hb h1 (hno fls h1)
  refine hst.start.hash hW hm hp hs h ?_
  have : fineLines (P.iterating h) a o = fineLines P a o := by
    unfold fineLines
    rw [hb.build, if_pos rfl, if_pos rfl, effCoupling_eq, effThreshold_eq]
    exact buildLines_hash hW _ _ (linesInput_of hm hb) _
  unfold anisoPhase
  rw [this]

/-- **C30** (calls with given lines) The same. -/
theorem C30_given (hW : LawfulLt W) {P : Platform} {a : Args W} {o : Outs} {n : Nat} (hm : ValidMesh a n)
    (hp : ValidParams P a) (hs : CorrectsSingletons a) {ls : List (List Nat)} (hb : GivesLines a o n ls)
    (hno : FitsLimit a (ls.filter (fun l => decide (1 < l.length)))) (h : Hash) :
    agglomerateOneLevel (P.iterating h) a o = agglomerateOneLevel P a o := by
  obtain ⟨c, k, p, cls, gss, hst⟩ := given_start hm hp hb hno
  refine hst.start.hash hW hm hp hs h ?_
  unfold anisoPhase fineLines
  rw [hb.build]
  rfl

/-- **C30** (lines alone) The lines built do not depend on the order, for any weights. -/
theorem C30_lines (hW : LawfulLt W) {g : Graph W} (h h' : Hash) {prio : List W} {coupling : Coupling} {thr : W}
    (hI : LinesInput g prio coupling thr) (force : Bool) :
    buildLines g h prio coupling force thr = buildLines g h' prio coupling force thr :=
  buildLines_hash hW h h' hI force

/-! ## The restriction on the correction is needed -/

/-- a path of three cells, a triangle with two of its corners in no full coarse cell, a path
of three cells; threshold 2 -/
def exOrder : Args Int :=
  { exSplit with
    rowPtr := [0, 1, 3, 5, 8, 10, 13, 15, 16], colInd := [1, 0, 2, 1, 3, 2, 4, 5, 3, 5, 3, 4, 6, 5, 7, 6],
    values := List.replicate 16 1 }

theorem exOrder_crs : ValidCRS 8 exOrder.rowPtr exOrder.colInd := checkCRS_sound (by decide)

theorem exOrder_valid : ValidMesh exOrder 8 where
  pos := by decide
  crs := exOrder_crs
  sym := checkSym_sound exOrder_crs (by decide)
  uniq := Or.inl (checkUniq_sound exOrder_crs (by decide))
  values := rfl
  volumes := rfl
  centers := rfl
  prio := rfl
  bnd := rfl
  coords := ⟨2, by decide⟩

theorem exOrder_params : ValidParams exPlatform exOrder where
  dim := by decide
  minCard := by decide
  goalCard := by decide
  maxCard := by decide
  iter := by decide
  thresh := by decide
  order := by decide
  aspect := by decide
  onePoint := by decide

/-- With a threshold of 2 the correction gives results that depend on the iteration order:
the cells of a small coarse cell are moved one by one. -/
theorem C30_counterexample : ∃ a : Args Int, ValidMesh a 8 ∧ ValidParams exPlatform a ∧ a.singThresh = 2 ∧
    ∃ f f', agglomerateOneLevel exPlatform a ⟨[], [], []⟩ = (⟨f, [], []⟩, .ok ()) ∧
      agglomerateOneLevel (exPlatform.iterating Hash.rev) a ⟨[], [], []⟩ = (⟨f', [], []⟩, .ok ()) ∧
      f[3]? = f[2]? ∧ f'[3]? ≠ f'[2]? := by
  refine ⟨exOrder, exOrder_valid, exOrder_params, rfl, [0, 0, 0, 0, 1, 1, 1, 1], [0, 0, 0, 1, 1, 1, 1, 1],
    by decide +kernel, by decide +kernel, by decide, by decide⟩

/-! ## Concrete cases -/

example (h : Hash) : agglomerateOneLevel (exPlatform.iterating h) exArgs ⟨[], [], []⟩ =
    agglomerateOneLevel exPlatform exArgs ⟨[], [], []⟩ :=
  C30_isotropic exLawful exArgs_valid exArgs_params exArgs_sing (Or.inl rfl) h

example (h : Hash) := C30_built exLawful (o := ⟨[], [], []⟩) exBuild_valid exBuild_params (fun _ => Or.inl rfl) exBuild_lines
  (by intro _ _ l _ m h; cases h) h
example (h : Hash) := C30_given exLawful exGiven_valid exGiven_params (fun _ => Or.inl rfl) exGiven_lines
  (by intro l _ m h; cases h) h

/-- the other order really is another one -/
example : Hash.rev.ord 3 [0, 1, 2] ≠ Hash.id.ord 3 [0, 1, 2] := by decide

end CoMMA
