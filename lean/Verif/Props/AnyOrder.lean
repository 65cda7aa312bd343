import Verif.Lemmas.AnyOrder
import Verif.Props.HistoryAny
import Verif.Props.WholeCall
import Verif.Props.AfterLines
/-! # C65: the description of the outputs with any threshold is exact

With a threshold of correction above 1 the outputs depend on the order in which an unordered
container is iterated.  The description leaves this order open; here: it leaves open nothing else. -/

set_option linter.unusedSectionVars false

namespace CoMMA

variable {W : Type} [Num W]

/-- lines do not depend on the order -/
theorem ValidMode.aniso_hash (hW : LawfulLt W) {P : Platform} {a : Args W} {o : Outs} {n : Nat} (hm : ValidMesh a n)
    (hmode : ValidMode (graphOf a) a o n) (h : Hash) (c : PoolCfg W) : anisoPhase (P.iterating h) a o c = anisoPhase P a o c := by
  rcases hmode.mode with h1 | ⟨hb, _⟩ | ⟨ls, hg⟩
  · unfold anisoPhase
    rw [withoutLines_iff.1 h1]
    rfl
  · have : fineLines (P.iterating h) a o = fineLines P a o := by
      unfold fineLines
      rw [hb.build, if_pos rfl, if_pos rfl, effCoupling_eq, effThreshold_eq]
      exact buildLines_hash hW _ _ (linesInput_of hm hb) _
    unfold anisoPhase
    rw [this]
  · unfold anisoPhase fineLines
    rw [hg.build]
    rfl

/-- the whole call with another order -/
theorem run_iterating (hW : LawfulLt W) {P : Platform} {a : Args W} {o : Outs} {n : Nat} {c : PoolCfg W} {k : Cont} {p : Pool}
    {idx lines : List Nat} (hst : Start P a o c n k p idx lines) (hasp : a.aspect ≠ .unknown) {k1 : Cont} {p1 : Pool}
    (hg : Grown P a o n k c p p1 k1) (h : Hash) (hl : anisoPhase (P.iterating h) a o c = anisoPhase P a o c) {k2 : Cont}
    (hk2 : correctIf (P.iterating h) a k1 = .ok k2) {f : List Nat} (hf : fillFcToCc k2 = .ok f) :
    agglomerateOneLevel (P.iterating h) a o = (⟨f, idx, lines⟩, .ok ()) := by
  have hiso : isoPhase (P.iterating h) a c k p = .ok k2 := by
    unfold isoPhase
    rw [isoEnvOf_hash hW, isoRun_hash hW, hg.eq, decide_eq_true hasp, checkArg_true, ok_bind, ok_bind]
    exact hk2
  unfold agglomerateOneLevel
  rw [show checkAll (P.iterating h) a o = checkAll P a o from rfl, hst.check]
  simp only
  unfold runPhases
  rw [hl, hst.eq]
  simp only
  rw [hiso]
  simp only
  rw [hf]

/-- correction with some order -/
theorem Described.some_order (hW : LawfulLt W) {P : Platform} {a : Args W} {o : Outs} {n : Nat} (hm : ValidMesh a n)
    (hp : ValidParams P a) (hu : UniqueRows a.rowPtr a.colInd) (hl : NoSelfLoop a.rowPtr a.colInd)
    (hmode : ValidMode (graphOf a) a o n) {c : PoolCfg W} {k : Cont} {p : Pool} {idx lines : List Nat}
    {gss : List (List (List Nat))} (h : Described P a o n c k p idx lines gss) :
    ∃ f0, MapAfterLines (isoEnvOf P a c) (GrownGreedily (isoEnvOf P a c)) n gss f0 ∧
      agglomerateOneLevel P { a with correction := false } o = (⟨f0, idx, lines⟩, .ok ()) ∧
      (∀ h, ∃ f, agglomerateOneLevel (P.iterating h) a o = (⟨f, idx, lines⟩, .ok ()) ∧ FixedSmalls a gss.flatten.length f0 f) ∧
      ∀ f, FixedSmalls a gss.flatten.length f0 f → ∃ h, agglomerateOneLevel (P.iterating h) a o = (⟨f, idx, lines⟩, .ok ()) := by
  obtain ⟨f0, h1, h2⟩ := h.map
  have hn := graphOf_nbC hm
  obtain ⟨k1, p1, f0', hg, g1, g2, ht, hE⟩ := h.start.aenv hm hp
  rw [g1] at h1
  cases h1
  have hfill : ∀ {k2 : Cont} {f : List Nat}, Views (graphOf a).nbC f k2 → k2.fc2cc.length = (graphOf a).nbC → fillFcToCc k2 = .ok f := by
    intro k2 f hV hl2
    rw [hn] at hl2
    have hVl := hV.len
    rw [hn] at hVl
    obtain ⟨f', e1, e2, e3⟩ := fill_ok hl2 (by
      intro i hi
      rw [← hVl] at hi
      exact ⟨_, (hV.get i _).1 (List.getElem?_eq_getElem hi)⟩)
    rw [e1]
    congr 1
    apply List.ext_getElem?
    intro i
    apply Option.ext
    intro j
    rw [e3, hV.get]
  have hN : ∀ j, j ∈ f0 ↔ j < k1.counter := by
    intro j
    constructor
    · intro hj
      obtain ⟨i, hi'⟩ := List.mem_iff_getElem?.1 hj
      exact hE.cinv.range i j ((hE.views.get i j).1 hi')
    · intro hj
      obtain ⟨cc, hcc⟩ := hE.cinv.keys' hj
      have hpos := hE.cinv.card j cc hcc
      obtain ⟨x, hx⟩ := NSet.card_pos_iff.1 (show 0 < cc.fcs.card by omega)
      exact List.mem_of_getElem? ((hE.views.get x j).2 ((hE.cinv.part j cc hcc x).1 hx))
  refine ⟨f0, h2, g1, ?_, ?_⟩
  · intro hh
    have hphase := hmode.aniso_hash hW (P := P) hm hh c
    cases hcor : a.correction with
    | false =>
      refine ⟨f0, run_iterating hW h.start hp.aspect hg hh hphase (k2 := k1) (by unfold correctIf; rw [hcor]; rfl)
        (hfill hE.views hE.cinv.lenF), ?_⟩
      unfold FixedSmalls
      rw [hcor]
      rfl
    | true =>
      obtain ⟨k2, hk2, f1, D, c1, rem, hT, hD, hV, hlen2, hspec⟩ := (correct_any hE hh).eq
      refine ⟨_, run_iterating hW h.start hp.aspect hg hh hphase (k2 := k2) (by unfold correctIf; rw [hcor]; exact hk2)
        (hfill hV hlen2), ?_⟩
      unfold FixedSmalls
      rw [hcor, if_pos rfl, ← h.counter]
      refine ⟨k1.counter, f1, D, hN, ?_, rfl⟩
      rw [← ht]
      exact hspec hu hl
  · intro f hf
    unfold FixedSmalls at hf
    cases hcor : a.correction with
    | false =>
      rw [hcor, if_neg (by simp)] at hf
      subst hf
      exact ⟨P.hash, run_iterating hW h.start hp.aspect hg P.hash (hmode.aniso_hash hW (P := P) hm P.hash c) (k2 := k1)
        (by unfold correctIf; rw [hcor]; rfl) (hfill hE.views hE.cinv.lenF)⟩
    | true =>
      rw [hcor, if_pos rfl, ← h.counter] at hf
      obtain ⟨N, f1, D, b1, b2, rfl⟩ := hf
      have hNN : N = k1.counter := by
        have e : ∀ j, j < N ↔ j < k1.counter := fun j => (b1 j).symm.trans (hN j)
        have e1 := (e k1.counter).1
        have e2 := (e N).2
        omega
      subst hNN
      rw [← ht] at b2
      obtain ⟨hh, hok⟩ := correct_reach hE hu hl b2
      obtain ⟨k2, hk2, hV, hlen2⟩ := hok.eq
      exact ⟨hh, run_iterating hW h.start hp.aspect hg hh (hmode.aniso_hash hW (P := P) hm hh c) (k2 := k2)
        (by unfold correctIf; rw [hcor]; exact hk2) (hfill hV hlen2)⟩

/-- **C65** (any threshold) The outputs that fulfil the description are exactly those of the call for
some order in which unordered containers are iterated. -/
theorem C65_some_order {P : Platform} {a : Args W} {o : Outs} {n : Nat} (hm : ValidMesh a n) (hp : ValidParams P a)
    (hW : LawfulLt W) (hu : UniqueRows a.rowPtr a.colInd) (hl : NoSelfLoop a.rowPtr a.colInd)
    (hmode : ValidMode (graphOf a) a o n) (out : Outs) :
    (∃ h, agglomerateOneLevel (P.iterating h) a o = (out, .ok ())) ↔
      DescribedBy P a o n (fun E => GrownGreedily E) (FixedSmalls a) out := by
  obtain ⟨c, k, p, idx, lines, gss, hd⟩ := described hm hp hW hu hl hmode
  obtain ⟨f0, h2, _, h3, h4⟩ := hd.some_order hW hm hp hu hl hmode
  constructor
  · rintro ⟨h, hh⟩
    obtain ⟨f, e1, e2⟩ := h3 h
    rw [e1] at hh
    cases hh
    exact ⟨isoEnvOf P a c, gss, f0, callEnv hp hd.start.made, hd.rows f, h2, e2⟩
  · rintro ⟨E, gss', f0', a1, a2, a3, a4⟩
    obtain rfl := a1.unique (callEnv hp hd.start.made)
    obtain ⟨rfl, e1, e2⟩ := a2.unique hW (hd.rows [])
    obtain rfl := a3.unique hW (determined_greedy hW _) h2
    obtain ⟨h, hh⟩ := h4 _ a4
    refine ⟨h, ?_⟩
    rw [hh]
    obtain ⟨_, _, _⟩ := out
    cases e1; cases e2; rfl

/-- **C65** (any threshold, exact arithmetic) The same with the aspect ratios of the enlarged coarse cells. -/
theorem C65_some_order_shaped {P : Platform} {a : Args W} {o : Outs} {n : Nat} (hm : ValidMesh a n) (hp : ValidParams P a)
    (hW : LawfulLt W) (hu : UniqueRows a.rowPtr a.colInd) (hl : NoSelfLoop a.rowPtr a.colInd)
    (hF : FeatInput (graphOf a) a.aspect) (hmode : ValidMode (graphOf a) a o n) (out : Outs) :
    (∃ h, agglomerateOneLevel (P.iterating h) a o = (out, .ok ())) ↔
      DescribedBy P a o n (fun E => ShapedSeq E a.aspect) (FixedSmalls a) out := by
  obtain ⟨c, k, p, idx, lines, gss, hd⟩ := described hm hp hW hu hl hmode
  obtain ⟨f0, h2, _, h3, h4⟩ := hd.some_order hW hm hp hu hl hmode
  have h2' := h2.shaped hm hp hF hd.start.made
  constructor
  · rintro ⟨h, hh⟩
    obtain ⟨f, e1, e2⟩ := h3 h
    rw [e1] at hh
    cases hh
    exact ⟨isoEnvOf P a c, gss, f0, callEnv hp hd.start.made, hd.rows f, h2', e2⟩
  · rintro ⟨E, gss', f0', a1, a2, a3, a4⟩
    obtain rfl := a1.unique (callEnv hp hd.start.made)
    obtain ⟨rfl, e1, e2⟩ := a2.unique hW (hd.rows [])
    obtain rfl := a3.unique hW (determined_shaped hW _ hp.aspect) h2'
    obtain ⟨h, hh⟩ := h4 _ a4
    refine ⟨h, ?_⟩
    rw [hh]
    obtain ⟨_, _, _⟩ := out
    cases e1; cases e2; rfl

/-- **C56** (an equivalence) `out0` being the outputs of the call without correction, whose first `m` coarse
cells are made from lines, `out` are the outputs of the call for some order of iteration over unordered
containers if and only if the lines are the same and the map is corrected as specified. -/
theorem C56_some_order {P : Platform} {a : Args W} {o : Outs} {n : Nat} (hm : ValidMesh a n) (hp : ValidParams P a)
    (hW : LawfulLt W) (hu : UniqueRows a.rowPtr a.colInd) (hl : NoSelfLoop a.rowPtr a.colInd)
    (hmode : ValidMode (graphOf a) a o n) {out0 : Outs} {m : Nat}
    (h0 : agglomerateOneLevel P { a with correction := false } o = (out0, .ok ())) (hlc : LineCells a o out0 m) (out : Outs) :
    (∃ h, agglomerateOneLevel (P.iterating h) a o = (out, .ok ())) ↔
      out.linesIdx = out0.linesIdx ∧ out.lines = out0.lines ∧ FixedSmalls a m out0.fcToCc out.fcToCc := by
  obtain ⟨c, k, p, idx, lines, gss, hd⟩ := described hm hp hW hu hl hmode
  obtain ⟨f0, _, h1, h3, h4⟩ := hd.some_order hW hm hp hu hl hmode
  rw [h1] at h0
  cases h0
  obtain rfl : m = gss.flatten.length := by
    rcases hlc with ⟨a1, a2⟩ | ⟨a1, a2⟩ <;> rcases (hd.rows f0).lineCells with ⟨b1, b2⟩ | ⟨b1, b2⟩
    · rw [a2, b2]
    · exact absurd a1 b1
    · exact absurd b1 a1
    · have := congrArg List.length (a2.symm.trans b2)
      simpa using this
  constructor
  · rintro ⟨h, hh⟩
    obtain ⟨f, e1, e2⟩ := h3 h
    rw [e1] at hh
    cases hh
    exact ⟨rfl, rfl, e2⟩
  · rintro ⟨e1, e2, e3⟩
    obtain ⟨h, hh⟩ := h4 _ e3
    refine ⟨h, ?_⟩
    rw [hh]
    obtain ⟨_, _, _⟩ := out
    cases e1; cases e2; rfl

/-- **C65** (orders that change during the call) Whatever the orders, the call ends well and its outputs
fulfil the description. -/
theorem C65_history {P : Platform} {a : Args W} {o : Outs} {n : Nat} (hm : ValidMesh a n) (hp : ValidParams P a)
    (hW : LawfulLt W) (hu : UniqueRows a.rowPtr a.colInd) (hl : NoSelfLoop a.rowPtr a.colInd)
    (hmode : ValidMode (graphOf a) a o n) (Ω : Nat → Hash) :
    ∃ out, agglomerateHistory Ω P a o = (out, .ok ()) ∧ DescribedBy P a o n (fun E => GrownGreedily E) (FixedSmalls a) out := by
  have key : ∃ h, agglomerateHistory Ω P a o = agglomerateOneLevel (P.iterating h) a o := by
    rcases hmode.mode with h | ⟨hb, hnn⟩ | ⟨ls, hg⟩
    · exact C30_isotropic_one_order hW hm hp h Ω
    · obtain ⟨fls, seeds, h1, h2, h3, h4, h5⟩ := C48_call hW (P := P) (o := o) hm hb hl hnn
      refine C30_built_one_order hW hm hp hb (fun fls' h' => ?_) Ω
      rw [h1] at h'
      cases h'
      exact hmode.fits _ (.built hb h2 h3 h4 h5)
    · exact C30_given_one_order hW hm hp hg (hmode.fits _ (.given hg)) Ω
  obtain ⟨h, hh⟩ := key
  obtain ⟨c, k, p, idx, lines, gss, hd⟩ := described hm hp hW hu hl hmode
  obtain ⟨f0, _, _, h3, _⟩ := hd.some_order hW hm hp hu hl hmode
  obtain ⟨f, e1, _⟩ := h3 h
  exact ⟨_, hh.trans e1, (C65_some_order hm hp hW hu hl hmode _).1 ⟨h, e1⟩⟩

/-! ### Concrete cases -/


theorem exOrder_mode (o : Outs) : ValidMode (graphOf exOrder) exOrder o 8 :=
  ⟨Or.inl (Or.inl rfl), fun _ _ => by intro l _ m h; cases h⟩

/-- threshold 2, two results for two orders: both fulfil the description -/
example : DescribedBy exPlatform exOrder ⟨[], [], []⟩ 8 (fun E => GrownGreedily E) (FixedSmalls exOrder)
      ⟨[0, 0, 0, 0, 1, 1, 1, 1], [], []⟩ ∧
    DescribedBy exPlatform exOrder ⟨[], [], []⟩ 8 (fun E => GrownGreedily E) (FixedSmalls exOrder)
      ⟨[0, 0, 0, 1, 1, 1, 1, 1], [], []⟩ := by
  have key := fun out => C65_some_order (o := ⟨[], [], []⟩) exOrder_valid exOrder_params exLawful
    (checkUniq_sound exOrder_crs (by decide)) (checkNoLoop_sound exOrder_crs (by decide)) (exOrder_mode _) out
  exact ⟨(key _).1 ⟨exPlatform.hash, by decide +kernel⟩, (key _).1 ⟨Hash.rev, by decide +kernel⟩⟩

/-- both results come from the same uncorrected one -/
example : FixedSmalls exOrder 0 [0, 0, 0, 2, 2, 1, 1, 1] [0, 0, 0, 0, 1, 1, 1, 1] ∧
    FixedSmalls exOrder 0 [0, 0, 0, 2, 2, 1, 1, 1] [0, 0, 0, 1, 1, 1, 1, 1] := by
  have key := fun out => C56_some_order (P := exPlatform) (o := ⟨[], [], []⟩) (out0 := ⟨[0, 0, 0, 2, 2, 1, 1, 1], [], []⟩) (m := 0)
    exOrder_valid exOrder_params exLawful (checkUniq_sound exOrder_crs (by decide)) (checkNoLoop_sound exOrder_crs (by decide))
    (exOrder_mode _) (by decide +kernel) (Or.inl ⟨Or.inl rfl, rfl⟩) out
  exact ⟨((key ⟨_, [], []⟩).1 ⟨exPlatform.hash, by decide +kernel⟩).2.2, ((key ⟨_, [], []⟩).1 ⟨Hash.rev, by decide +kernel⟩).2.2⟩

example := C65_history (o := ⟨[], [], []⟩) exOrder_valid exOrder_params exLawful
  (checkUniq_sound exOrder_crs (by decide)) (checkNoLoop_sound exOrder_crs (by decide))
  ⟨Or.inl (Or.inl rfl), fun _ _ => by intro l _ m h; cases h⟩ exOrders

example (out : Outs) := C65_some_order_shaped (o := ⟨[], [], []⟩) exRow_valid exRow_params exLawful exRow_uniq exRow_loop exRow_input
  (exRow_mode _) out

end CoMMA
