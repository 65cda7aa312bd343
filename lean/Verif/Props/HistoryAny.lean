import Verif.Lemmas.HistoryAny
import Verif.Props.AnyThreshold
/-! # C30: iteration orders that change during the call, with any threshold

When the correction treats coarse cells of more than one fine cell, results depend on the orders
(`C30_counterexample`).  Whatever orders are met during a call, one order, the same during the whole
call, gives the same outputs: what holds of the model for every order holds of such a call. -/

set_option linter.unusedSectionVars false

namespace CoMMA

variable {W : Type} [Num W]

theorem Start.history_order (hW : LawfulLt W) {P : Platform} {a : Args W} {o : Outs} {n : Nat} (hm : ValidMesh a n)
    (hp : ValidParams P a) (Ω : Nat → Hash) {c : PoolCfg W} {k : Cont} {p : Pool} {idx lines : List Nat}
    (hst : Start P a o c n k p idx lines) (hl : SameAs (anisoPhaseH Ω P a o c) (anisoPhase P a o c))
    (hf : ∀ h, anisoPhase (P.iterating h) a o c = anisoPhase P a o c) :
    ∃ h, agglomerateHistory Ω P a o = agglomerateOneLevel (P.iterating h) a o := by
  obtain ⟨k1, p1, hg⟩ := grown_ok hm hp hst
  have hci : CInv n k1 := by
    have := hg.inv.cinv
    rwa [show (isoEnvOf P a c).g.nbC = n from graphOf_nbC hm] at this
  have hiso : ∀ t, ∃ h, (isoPhaseH Ω P a c k p t).map Prod.fst = isoPhase (P.iterating h) a c k p := by
    intro t
    have h1 := isoRunH_same (A := fun h => arOf (graphOf a) h a.aspect) (E := isoEnvOf P a c)
      (fun t => by rw [arOf_hash hW (graphOf a) (Ω t) P.hash]; rfl) (Or.inl hW) k p t
    rw [hg.eq] at h1
    cases hm1 : isoRunH Ω (fun h => arOf (graphOf a) h a.aspect) (isoEnvOf P a c) k p t with
    | error e => rw [hm1] at h1; cases h1
    | ok r =>
      rw [hm1] at h1
      injection h1 with h1
      have hcor : ∃ h, ((if a.correction then correctH Ω (graphOf a) r.1.1 else pure r.1.1) r.2).map Prod.fst =
          correctIf (P.iterating h) a r.1.1 := by
        unfold correctIf
        split
        · rw [h1]
          exact correctH_order (graphOf a) Ω hci r.2
        · exact ⟨P.hash, rfl⟩
      obtain ⟨h, hh⟩ := hcor
      refine ⟨h, ?_⟩
      unfold isoPhaseH isoPhase
      rw [isoEnvOf_hash hW, isoRun_hash hW, hg.eq]
      cases checkArg (decide (a.aspect ≠ .unknown)) with
      | error e => rfl
      | ok u =>
        show (((isoRunH Ω (fun h => arOf (graphOf a) h a.aspect) (isoEnvOf P a c) k p t) >>= fun q =>
          (if a.correction then correctH Ω (graphOf a) q.1.1 else pure q.1.1) q.2 : M (Cont × Nat))).map Prod.fst = _
        rw [hm1, ok_bind, ok_bind, ok_bind, hh, h1]
  have h0 := hl 0
  rw [hst.eq] at h0
  cases h2 : anisoPhaseH Ω P a o c 0 with
  | error e => rw [h2] at h0; cases h0
  | ok r =>
    obtain ⟨⟨k', p', idx', lines'⟩, t⟩ := r
    rw [h2] at h0
    injection h0 with h0
    injection h0 with h3 h4
    injection h4 with h4 h5
    injection h5 with h5 h6
    subst h3 h4 h5 h6
    obtain ⟨h, hh⟩ := hiso t
    refine ⟨h, ?_⟩
    unfold agglomerateHistory agglomerateOneLevel
    rw [show checkAll (P.iterating h) a o = checkAll P a o from rfl, hst.check]
    simp only
    unfold runPhasesH runPhases
    rw [hf, hst.eq, h2]
    simp only
    rw [← hh]
    cases isoPhaseH Ω P a c k' p' t with
    | error e => rfl
    | ok r => rfl

/-- **C30** (isotropic calls, any threshold) Each iteration over an unordered container may have an
order of its own: there is one order that, used during the whole call, gives the same outputs. -/
theorem C30_isotropic_one_order (hW : LawfulLt W) {P : Platform} {a : Args W} {o : Outs} {n : Nat} (hm : ValidMesh a n)
    (hp : ValidParams P a) (hoff : WithoutLines a o) (Ω : Nat → Hash) :
    ∃ h, agglomerateHistory Ω P a o = agglomerateOneLevel (P.iterating h) a o := by
  obtain ⟨c, k, p, hst, _⟩ := start_iso hm hp hoff
  refine hst.history_order hW hm hp Ω ?_ (fun h => ?_)
  · unfold anisoPhaseH anisoPhase
    rw [withoutLines_iff.1 hoff]
    exact (SameAs.plainly _).bind (fun _ => SameAs.pure _)
  · unfold anisoPhase
    rw [withoutLines_iff.1 hoff]
    rfl

/-- **C30** (calls that build lines, any threshold) The same. -/
theorem C30_built_one_order (hW : LawfulLt W) {P : Platform} {a : Args W} {o : Outs} {n : Nat} (hm : ValidMesh a n)
    (hp : ValidParams P a) (hb : BuildsLines a n)
    (hno : ∀ fls, fineLines P a o = .ok fls → FitsLimit a fls) (Ω : Nat → Hash) :
    ∃ h, agglomerateHistory Ω P a o = agglomerateOneLevel (P.iterating h) a o := by
  obtain ⟨fls, h1, _⟩ := fineLines_build (P := P) (o := o) hm hb
  obtain ⟨c, k, p, cls, gss, hst⟩ := built_start hm hp hb h1 (hno fls h1)
  have hh : ∀ h, fineLines (P.iterating h) a o = fineLines P a o := by
    intro h
    unfold fineLines
    rw [hb.build, if_pos rfl, if_pos rfl, effCoupling_eq, effThreshold_eq]
    exact buildLines_hash hW _ _ (linesInput_of hm hb) _
  refine hst.start.history_order hW hm hp Ω (anisoPhaseH_same c Ω hh) (fun h => ?_)
  unfold anisoPhase
  rw [hh]

/-- **C30** (calls with given lines, any threshold) The same. -/
theorem C30_given_one_order (hW : LawfulLt W) {P : Platform} {a : Args W} {o : Outs} {n : Nat} (hm : ValidMesh a n)
    (hp : ValidParams P a) {ls : List (List Nat)} (hb : GivesLines a o n ls)
    (hno : FitsLimit a (ls.filter (fun l => decide (1 < l.length)))) (Ω : Nat → Hash) :
    ∃ h, agglomerateHistory Ω P a o = agglomerateOneLevel (P.iterating h) a o := by
  obtain ⟨c, k, p, cls, gss, hst⟩ := given_start hm hp hb hno
  have hh : ∀ h, fineLines (P.iterating h) a o = fineLines P a o := by
    intro h
    unfold fineLines
    rw [hb.build]
    rfl
  refine hst.start.history_order hW hm hp Ω (anisoPhaseH_same c Ω hh) (fun h => ?_)
  unfold anisoPhase
  rw [hh]

/-- **C12** (orders that change during the call) Whatever the orders and the threshold, the call ends
well and the correction leaves together the cells of each coarse cell above the threshold. -/
theorem C12_large_history_partial (hW : LawfulLt W) {P : Platform} {a : Args W} {o : Outs} {n : Nat} (hm : ValidMesh a n)
    (hp : ValidParams P a) (hcor : a.correction = true) (hoff : WithoutLines a o) (Ω : Nat → Hash) :
    ∃ f f0 : List Nat, agglomerateHistory Ω P a o = (⟨f, o.linesIdx, o.lines⟩, .ok ()) ∧
      agglomerateOneLevel P { a with correction := false } o = (⟨f0, o.linesIdx, o.lines⟩, .ok ()) ∧ f0.length = n ∧
      KeepsLarge 0 (sizeLimit a) f0 f := by
  obtain ⟨h, hh⟩ := C30_isotropic_one_order hW hm hp hoff Ω
  obtain ⟨f, f0, h1, h2, h3, h4⟩ := C12_large_partial (P := P.iterating h) hm ⟨hp.dim, hp.minCard, hp.goalCard, hp.maxCard,
    hp.iter, hp.thresh, hp.order, hp.aspect, hp.onePoint⟩ hcor hoff
  refine ⟨f, f0, hh ▸ h1, ?_, h3, h4⟩
  rw [← h2]
  exact (C30_isotropic hW (a := { a with correction := false }) ⟨hm.pos, hm.crs, hm.sym, hm.uniq, hm.values, hm.volumes,
    hm.centers, hm.prio, hm.bnd, hm.coords⟩ ⟨hp.dim, hp.minCard, hp.goalCard, hp.maxCard, hp.iter, hp.thresh, hp.order,
    hp.aspect, hp.onePoint⟩ (fun h => by cases h) hoff h).symm

/-! ## Concrete cases -/

example := C12_large_history_partial exLawful exOrder_valid exOrder_params (o := ⟨[], [], []⟩) rfl (Or.inl rfl) exOrders

/-- here the order matters: threshold 2 -/
example := C30_isotropic_one_order exLawful exOrder_valid exOrder_params (o := ⟨[], [], []⟩) (Or.inl rfl) exOrders
example := C30_built_one_order exLawful (o := ⟨[], [], []⟩) exBuild_valid exBuild_params exBuild_lines
  (by intro _ _ l _ m h; cases h) exOrders
example := C30_given_one_order exLawful exGiven_valid exGiven_params exGiven_lines
  (by intro l _ m h; cases h) exOrders

end CoMMA
