import Verif.Lemmas.History
import Verif.Props.HashFree
/-! # C30: iteration orders that change during the call -/

set_option linter.unusedSectionVars false

namespace CoMMA

variable {W : Type} [Num W]

theorem call_history {P : Platform} {a : Args W} {o : Outs} {Ω : Nat → Hash} {c : PoolCfg W} (hc : checkAll P a o = .ok c)
    (hl : SameAs (anisoPhaseH Ω P a o c) (anisoPhase P a o c))
    (hi : ∀ k p idx lines, anisoPhase P a o c = .ok (k, p, idx, lines) → SameAs (isoPhaseH Ω P a c k p) (isoPhase P a c k p)) :
    agglomerateHistory Ω P a o = agglomerateOneLevel P a o := by
  unfold agglomerateHistory agglomerateOneLevel
  rw [hc]
  simp only
  unfold runPhasesH runPhases
  have h0 := hl 0
  cases h1 : anisoPhaseH Ω P a o c 0 with
  | error e =>
    rw [h1] at h0
    rw [← h0]; rfl
  | ok r =>
    obtain ⟨⟨k, p, idx, lines⟩, t⟩ := r
    rw [h1] at h0
    have h6 := hi k p idx lines h0.symm t
    rw [← h0]
    simp only [Except.map]
    cases h7 : isoPhaseH Ω P a c k p t with
    | error e =>
      rw [h7] at h6
      rw [← h6]; rfl
    | ok r =>
      rw [h7] at h6
      rw [← h6]; rfl

/-- With the same order all the time the call is the one of the model, whatever its arguments. -/
theorem history_constant (P : Platform) (a : Args W) (o : Outs) :
    agglomerateHistory (fun _ => P.hash) P a o = agglomerateOneLevel P a o := by
  cases hc : checkAll P a o with
  | error e =>
    unfold agglomerateHistory agglomerateOneLevel
    rw [hc]
  | ok c =>
    refine call_history hc ?_ ?_
    · unfold anisoPhaseH anisoPhase
      refine SameAs.ite ?_ ((SameAs.plainly _).bind (fun _ => SameAs.pure _))
      unfold fineLinesH
      exact (SameAs.iteration (fun _ => rfl)).bind (fun _ => (SameAs.plainly _).bind (fun _ => SameAs.pure _))
    · intro k p _ _ _
      unfold isoPhaseH isoPhase
      refine (SameAs.plainly _).bind (fun _ => (isoRunH_same (Ω := fun _ => P.hash)
        (A := fun h => arOf (graphOf a) h a.aspect) (E := isoEnvOf P a c) (fun _ => rfl) (Or.inr (fun _ => rfl)) k p).bind (fun r => ?_))
      unfold correctIf
      exact SameAs.ite (correctH_const (fun _ => rfl) _) (SameAs.pure _)

theorem Start.history (hW : LawfulLt W) {P : Platform} {a : Args W} {o : Outs} {n : Nat} (hm : ValidMesh a n)
    (hp : ValidParams P a) (hs : CorrectsSingletons a) (Ω : Nat → Hash) {c : PoolCfg W} {k : Cont} {p : Pool} {idx lines : List Nat}
    (hst : Start P a o c n k p idx lines) (hl : SameAs (anisoPhaseH Ω P a o c) (anisoPhase P a o c)) :
    agglomerateHistory Ω P a o = agglomerateOneLevel P a o := by
  obtain ⟨k1, p1, hg⟩ := grown_ok hm hp hst
  have hiso : SameAs (isoPhaseH Ω P a c k p) (isoPhase P a c k p) := by
    unfold isoPhaseH isoPhase
    refine (SameAs.plainly _).bind (fun _ => ?_)
    intro t
    have h1 := isoRunH_same (A := fun h => arOf (graphOf a) h a.aspect) (E := isoEnvOf P a c)
      (fun t => by rw [arOf_hash hW (graphOf a) (Ω t) P.hash]; rfl) (Or.inl hW) k p t
    rw [hg.eq] at h1 ⊢
    cases hm1 : isoRunH Ω (fun h => arOf (graphOf a) h a.aspect) (isoEnvOf P a c) k p t with
    | error e => rw [hm1] at h1; cases h1
    | ok r =>
      rw [hm1] at h1
      injection h1 with h1
      show (((isoRunH Ω (fun h => arOf (graphOf a) h a.aspect) (isoEnvOf P a c) k p t) >>= fun q =>
        (if a.correction then correctH Ω (graphOf a) q.1.1 else pure q.1.1) q.2 : M (Cont × Nat))).map Prod.fst = _
      rw [hm1, ok_bind, ok_bind, h1]
      unfold correctIf
      split
      · rename_i hcor
        have hn := graphOf_nbC hm
        have hcrs : ValidCRS (graphOf a).nbC (graphOf a).rowPtr (graphOf a).colInd := by rw [hn]; exact hm.crs
        have ht : k1.thresh = 1 := by
          rw [hg.inv.thresh, hst.thresh]
          unfold effThresh
          have := hp.minCard
          have := hp.thresh
          have := hs hcor
          split <;> omega
        have hci : CInv n k1 := by
          have := hg.inv.cinv
          rwa [show (isoEnvOf P a c).g.nbC = n from hn] at this
        refine correctH_same hcrs _ _ (absorbs_sound hcrs hm.sym) hg.inv.cinv ht ?_ ?_ _
        · intro j cc hf hi
          by_cases hj : k.counter ≤ j
          · obtain ⟨_, hgood⟩ := hg.inv.iso j cc hj hf
            exact ⟨hgood.conn, hgood.compact⟩
          · rw [hg.inv.old j (by omega)] at hf
            rw [hst.aniso j cc hf] at hi; cases hi
        · intro i hi
          rw [hn] at hi
          exact hci.complete hg.all hi
      · rfl
  exact call_history hst.check hl (fun k' p' idx' lines' h => by
    rw [hst.eq] at h
    injection h with h
    injection h with h2 h3
    injection h3 with h3 h4
    subst h2 h3
    exact hiso)

/-- **C30** (isotropic calls) Each iteration over an unordered container may have an order of its own,
for example one that depends on the history of the container: the outputs are the same. -/
theorem C30_isotropic_history (hW : LawfulLt W) {P : Platform} {a : Args W} {o : Outs} {n : Nat} (hm : ValidMesh a n)
    (hp : ValidParams P a) (hs : CorrectsSingletons a) (hoff : WithoutLines a o) (Ω : Nat → Hash) :
    agglomerateHistory Ω P a o = agglomerateOneLevel P a o := by
  obtain ⟨c, k, p, hst, _⟩ := start_iso hm hp hoff
  refine hst.history hW hm hp hs Ω ?_
  unfold anisoPhaseH anisoPhase
  rw [withoutLines_iff.1 hoff]
  exact (SameAs.plainly _).bind (fun _ => SameAs.pure _)

theorem anisoPhaseH_same {P : Platform} {a : Args W} {o : Outs} (c : PoolCfg W) (Ω : Nat → Hash)
    (h : ∀ k, fineLines (P.iterating k) a o = fineLines P a o) : SameAs (anisoPhaseH Ω P a o c) (anisoPhase P a o c) := by
  unfold anisoPhaseH anisoPhase
  refine SameAs.ite ?_ ((SameAs.plainly _).bind (fun _ => SameAs.pure _))
  unfold fineLinesH
  exact (SameAs.iteration (fun t => h (Ω t))).bind (fun _ => (SameAs.plainly _).bind (fun _ => SameAs.pure _))

/-- **C30** (calls that build lines) The same, lines included. -/
theorem C30_built_history (hW : LawfulLt W) {P : Platform} {a : Args W} {o : Outs} {n : Nat} (hm : ValidMesh a n)
    (hp : ValidParams P a) (hs : CorrectsSingletons a) (hb : BuildsLines a n)
    (hno : ∀ fls, fineLines P a o = .ok fls → FitsLimit a fls) (Ω : Nat → Hash) :
    agglomerateHistory Ω P a o = agglomerateOneLevel P a o := by
  obtain ⟨fls, h1, _⟩ := fineLines_build (P := P) (o := o) hm hb
  obtain ⟨c, k, p, cls, gss, hst⟩ := built_start hm hp hb h1 (hno fls h1)
  refine hst.start.history hW hm hp hs Ω (anisoPhaseH_same c Ω (fun k => ?_))
  unfold fineLines
  rw [hb.build, if_pos rfl, if_pos rfl, effCoupling_eq, effThreshold_eq]
  exact buildLines_hash hW _ _ (linesInput_of hm hb) _

/-- **C30** (calls with given lines) The same. -/
theorem C30_given_history (hW : LawfulLt W) {P : Platform} {a : Args W} {o : Outs} {n : Nat} (hm : ValidMesh a n)
    (hp : ValidParams P a) (hs : CorrectsSingletons a) {ls : List (List Nat)} (hb : GivesLines a o n ls)
    (hno : FitsLimit a (ls.filter (fun l => decide (1 < l.length)))) (Ω : Nat → Hash) :
    agglomerateHistory Ω P a o = agglomerateOneLevel P a o := by
  obtain ⟨c, k, p, cls, gss, hst⟩ := given_start hm hp hb hno
  refine hst.start.history hW hm hp hs Ω (anisoPhaseH_same c Ω (fun k => ?_))
  unfold fineLines
  rw [hb.build]
  rfl

/-! ## Concrete cases -/

/-- increasing and decreasing order in turn -/
def exOrders (t : Nat) : Hash := if t % 2 = 0 then Hash.id else Hash.rev

example : agglomerateHistory exOrders exPlatform exArgs ⟨[], [], []⟩ = agglomerateOneLevel exPlatform exArgs ⟨[], [], []⟩ :=
  C30_isotropic_history exLawful exArgs_valid exArgs_params exArgs_sing (Or.inl rfl) exOrders

example := C30_built_history exLawful (o := ⟨[], [], []⟩) exBuild_valid exBuild_params (fun _ => Or.inl rfl) exBuild_lines
  (by intro _ _ l _ m h; cases h) exOrders
example := C30_given_history exLawful exGiven_valid exGiven_params (fun _ => Or.inl rfl) exGiven_lines
  (by intro l _ m h; cases h) exOrders

/-- the orders are used: with a threshold of 2 the result is the one of `C30_counterexample` -/
example : agglomerateHistory (fun t => if t < 5 then Hash.id else Hash.rev) exPlatform exOrder ⟨[], [], []⟩ =
    (⟨[0, 0, 0, 1, 1, 1, 1, 1], [], []⟩, .ok ()) := by decide +kernel

/-- the same contents at the same place in two orders -/
example : (exOrders 0).ord 2 [0, 1] ≠ (exOrders 1).ord 2 [0, 1] := by decide

end CoMMA
