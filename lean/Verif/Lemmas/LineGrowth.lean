import Verif.Lemmas.TagExact
/-! # The lines grow as specified -/

set_option linter.unusedSectionVars false

namespace CoMMA

variable {W : Type} [Num W]

/-- the references of the cells in `S` are right -/
structure LineData (L : LineEnv W) (coupling : Coupling) (S : Nat → Prop) : Prop where
  max : ∀ i, S i → ∃ m, L.maxW[i]? = some m ∧ StrongestOf L.g coupling i m
  ref : ∀ i, S i → ∀ k n, FaceAt L.g i k n → ∃ w, L.ref[k]? = some w ∧ CouplingAt L.g coupling i k n w

/-- an ordered list of candidates holds exactly the pairs of a relation -/
structure CandFor (R : Nat → W → Prop) (c : List (Nat × W)) : Prop where
  sorted : c.Pairwise (fun a b => greaterPair a b = true)
  mem : ∀ e, e ∈ c ↔ R e.1 e.2

theorem CandFor.best (hW : LawfulLt W) {R : Nat → W → Prop} {e : Nat × W} {c : List (Nat × W)} (h : CandFor R (e :: c)) :
    BestOf R e.1 := by
  refine ⟨e.2, (h.mem e).1 (by simp), ?_⟩
  intro n w hr
  have hm := (h.mem (n, w)).2 hr
  rcases List.mem_cons.1 hm with he | hm
  · subst he; exact ⟨hW.irrefl _, Or.inr (Nat.le_refl _)⟩
  · have := (List.pairwise_cons.1 h.sorted).1 _ hm
    rw [greaterPair_iff hW] at this
    rcases this with h1 | ⟨h1, h2⟩
    · exact ⟨hW.asymm h1, Or.inl h1⟩
    · simp only at h1 h2
      exact ⟨by rw [h1]; exact hW.irrefl _, Or.inr (by omega)⟩

theorem CandFor.none {R : Nat → W → Prop} (h : CandFor R []) : NoneOf R := by
  intro n w hr
  have := (h.mem (n, w)).2 hr
  simp at this

theorem CandFor.congr {R R' : Nat → W → Prop} {c : List (Nat × W)} (h : CandFor R c) (hr : ∀ n w, R n w ↔ R' n w) :
    CandFor R' c := ⟨h.sorted, fun e => (h.mem e).trans (hr _ _)⟩

theorem highCoupling_iff (hW : LawfulLt W) {g : Graph W} {coupling : Coupling} (hp : NonnegCouplings g coupling)
    {i n : Nat} {m w : W} (hm : StrongestOf g coupling i m) (hw : CouplingOf g coupling i n w) :
    highCoupling w m = true ↔ StrongCoupling g coupling i n w := by
  unfold highCoupling
  constructor
  · intro h; exact ⟨hw, m, hm, h⟩
  · rintro ⟨_, m', hm', h⟩
    rw [hm.unique hW hp hm']; exact h

/-- cells that may still be taken -/
def freeIn (t : List Bool) (n : Nat) : Prop := t[n]? = some true

theorem candWeight_exact (hW : LawfulLt W) {L : LineEnv W} (hL : LineOk L) {coupling : Coupling}
    (hp : NonnegCouplings L.g coupling) {S : Nat → Prop} (hD : LineData L coupling S) {toTreat : List Bool}
    (ht : toTreat.length = L.g.nbC) {seed : Nat} (hs : seed < L.g.nbC) (hS : S seed) :
    Ok (candWeight L toTreat seed) (CandFor (ByCoupling L.g coupling (freeIn toTreat) seed)) := by
  unfold candWeight
  obtain ⟨b, hb, hbl⟩ := row_offset hL.crs hs
  obtain ⟨mx, hmx, hmax⟩ := hD.max seed hS
  rw [hb, ok_bind, neighs_eq hL.crs hs, ok_bind, rd_ok.2 hmx, ok_bind]
  refine Ok.bind (P := fun (r : Nat × List (Nat × W)) => CandFor (fun n w => ∃ j, (rowL L.g.rowPtr L.g.colInd seed)[j]? = some n ∧
    freeIn toTreat n ∧ CouplingAt L.g coupling seed (b + j) n w ∧ StrongCoupling L.g coupling seed n w) r.2) ?_ ?_
  · refine Ok.mono (Ok.foldlM_prefix (I := fun (pre : List Nat) (s : Nat × List (Nat × W)) => s.1 = b + pre.length ∧
      CandFor (fun n w => ∃ j, pre[j]? = some n ∧ freeIn toTreat n ∧ CouplingAt L.g coupling seed (b + j) n w ∧
        StrongCoupling L.g coupling seed n w) s.2) ⟨rfl, by simp, by simp⟩ ?_) (fun r hr => hr.2)
    rintro pre n post s hsp ⟨h1, h2⟩
    have hn : n < L.g.nbC := hL.crs.rowL_lt hs (by rw [hsp]; simp)
    have hj : (rowL L.g.rowPtr L.g.colInd seed)[pre.length]? = some n := by rw [hsp]; simp
    have hf := (faceAt_iff hL.crs hs hb).2 ⟨pre.length, rfl, hj⟩
    obtain ⟨w, hw, hcw⟩ := hD.ref seed hS _ _ hf
    rw [rd_of_lt (by rw [ht]; exact hn), ok_bind, h1, rd_ok.2 hw, ok_bind, Ok_pure]
    refine ⟨by simp; omega, ?_⟩
    simp only
    have hiff := highCoupling_iff hW hp hmax ⟨_, hf, hcw⟩
    have hfree : toTreat[n] = true ↔ freeIn toTreat n := by
      unfold freeIn; rw [List.getElem?_eq_getElem (by rw [ht]; exact hn)]; simp
    by_cases hc : (toTreat[n] && highCoupling w mx) = true
    · rw [if_pos hc]
      rw [Bool.and_eq_true, hfree, hiff] at hc
      refine ⟨pinsert_sorted hW h2.sorted, ?_⟩
      intro e
      rw [mem_pinsert hW, h2.mem]
      constructor
      · rintro (rfl | ⟨j, hj, h3⟩)
        · exact ⟨pre.length, concat_getElem?.2 (Or.inr ⟨rfl, rfl⟩), hc.1, hcw, hc.2⟩
        · exact ⟨j, concat_getElem?.2 (Or.inl hj), h3⟩
      · rintro ⟨j, hj, h3, h4, h5⟩
        rcases concat_getElem?.1 hj with hj | ⟨rfl, hje⟩
        · exact Or.inr ⟨j, hj, h3, h4, h5⟩
        · left
          obtain ⟨e1, e2⟩ := e
          simp only at hje h4
          subst hje
          rw [h4.unique hcw]
    · rw [if_neg hc]
      refine ⟨h2.sorted, ?_⟩
      intro e
      rw [h2.mem]
      constructor
      · rintro ⟨j, hj, h3⟩
        exact ⟨j, concat_getElem?.2 (Or.inl hj), h3⟩
      · rintro ⟨j, hj, h3, h4, h5⟩
        rcases concat_getElem?.1 hj with hj | ⟨rfl, hje⟩
        · exact ⟨j, hj, h3, h4, h5⟩
        · exfalso
          apply hc
          obtain ⟨e1, e2⟩ := e
          simp only at hje h3 h4 h5
          subst hje
          rw [h4.unique hcw] at h5
          rw [Bool.and_eq_true, hfree, hiff]
          exact ⟨h3, h5⟩
  · intro r hr
    rw [Ok_pure]
    refine hr.congr ?_
    intro n w
    constructor
    · rintro ⟨j, hj, h3, h4, h5⟩
      exact ⟨h3, h5⟩
    · rintro ⟨h3, h5⟩
      obtain ⟨k, hf, hk⟩ := h5.1
      obtain ⟨j, rfl, hj⟩ := (faceAt_iff hL.crs hs hb).1 hf
      exact ⟨j, hj, h3, hk, h5⟩

theorem candDot_exact {L : LineEnv W} (hL : LineOk L) {prev : List W} (hp : prev.length = L.ptsDim) {seed n : Nat}
    (hs : seed < L.g.nbC) (hn : n < L.g.nbC) (s : List (Nat × W)) :
    ∃ c, (∀ c', Ahead L.g prev seed n c' ↔ c' = c ∧ (Num.lt (Num.ofNat 0) c && !dotDeviate c) = true) ∧
      candDot L prev seed n s = .ok (if Num.lt (Num.ofNat 0) c && !dotDeviate c then pinsert (n, c) s else s) := by
  unfold candDot
  obtain ⟨d, hd, hsd, hdl⟩ := centerDirection_eq hL hn hs (dir := List.replicate L.ptsDim (Num.ofNat 0)) (by simp)
  rw [hd, ok_bind, dotProduct_eq (by omega), ok_bind]
  refine ⟨scalar prev d, ?_, rfl⟩
  intro c'
  unfold dotDeviate
  simp only [Bool.and_eq_true, Bool.not_eq_true']
  constructor
  · rintro ⟨d', h1, h2, h3, h4⟩
    rw [h1.unique hsd] at h2
    subst h2
    exact ⟨rfl, h3, h4⟩
  · rintro ⟨rfl, h3, h4⟩
    exact ⟨d, hsd, rfl, h3, h4⟩

theorem candDir_exact (hW : LawfulLt W) {L : LineEnv W} (hL : LineOk L) {coupling : Coupling}
    (hp : NonnegCouplings L.g coupling) {S : Nat → Prop} (hD : LineData L coupling S) {toTreat : List Bool}
    (ht : toTreat.length = L.g.nbC) {seed : Nat} (hs : seed < L.g.nbC) (hS : S seed) {prev : List W}
    (hpl : prev.length = L.ptsDim) (cw : Bool) :
    Ok (candDir L toTreat prev cw seed) (CandFor (fun n c => freeIn toTreat n ∧
      (∃ w, CouplingOf L.g coupling seed n w ∧ (cw = true → StrongCoupling L.g coupling seed n w)) ∧ Ahead L.g prev seed n c)) := by
  unfold candDir
  obtain ⟨b, hb, hbl⟩ := row_offset hL.crs hs
  obtain ⟨mx, hmx, hmax⟩ := hD.max seed hS
  rw [hb, ok_bind, neighs_eq hL.crs hs, ok_bind, rd_ok.2 hmx, ok_bind]
  refine Ok.bind (P := fun (r : Nat × List (Nat × W)) => CandFor (fun n c => ∃ j, (rowL L.g.rowPtr L.g.colInd seed)[j]? = some n ∧
    freeIn toTreat n ∧ (∃ w, CouplingAt L.g coupling seed (b + j) n w ∧ (cw = true → StrongCoupling L.g coupling seed n w)) ∧
      Ahead L.g prev seed n c) r.2) ?_ ?_
  · refine Ok.mono (Ok.foldlM_prefix (I := fun (pre : List Nat) (s : Nat × List (Nat × W)) => s.1 = b + pre.length ∧
      CandFor (fun n c => ∃ j, pre[j]? = some n ∧ freeIn toTreat n ∧
        (∃ w, CouplingAt L.g coupling seed (b + j) n w ∧ (cw = true → StrongCoupling L.g coupling seed n w)) ∧
        Ahead L.g prev seed n c) s.2) ⟨rfl, by simp, by simp⟩ ?_) (fun r hr => hr.2)
    rintro pre n post s hsp ⟨h1, h2⟩
    have hn : n < L.g.nbC := hL.crs.rowL_lt hs (by rw [hsp]; simp)
    have hj : (rowL L.g.rowPtr L.g.colInd seed)[pre.length]? = some n := by rw [hsp]; simp
    have hf := (faceAt_iff hL.crs hs hb).2 ⟨pre.length, rfl, hj⟩
    obtain ⟨w, hw, hcw⟩ := hD.ref seed hS _ _ hf
    rw [rd_of_lt (by rw [ht]; exact hn), ok_bind, h1, rd_ok.2 hw, ok_bind]
    have hiff := highCoupling_iff hW hp hmax ⟨_, hf, hcw⟩
    have hfree : toTreat[n] = true ↔ freeIn toTreat n := by
      unfold freeIn; rw [List.getElem?_eq_getElem (by rw [ht]; exact hn)]; simp
    have hcond : (toTreat[n] && (!cw || highCoupling w mx)) = true ↔
        freeIn toTreat n ∧ (cw = true → StrongCoupling L.g coupling seed n w) := by
      rw [Bool.and_eq_true, hfree, Bool.or_eq_true, hiff, Bool.not_eq_true']
      cases cw <;> simp
    have hstay : (∀ c, ¬ (freeIn toTreat n ∧ (cw = true → StrongCoupling L.g coupling seed n w) ∧ Ahead L.g prev seed n c)) →
        CandFor (fun m c => ∃ j, (pre ++ [n])[j]? = some m ∧ freeIn toTreat m ∧
        (∃ w, CouplingAt L.g coupling seed (b + j) m w ∧ (cw = true → StrongCoupling L.g coupling seed m w)) ∧
        Ahead L.g prev seed m c) s.2 := by
      intro hno
      refine ⟨h2.sorted, ?_⟩
      intro e
      rw [h2.mem]
      constructor
      · rintro ⟨j, hj, h3⟩
        exact ⟨j, concat_getElem?.2 (Or.inl hj), h3⟩
      · rintro ⟨j, hj, h3, ⟨w', h4, h5⟩, h6⟩
        rcases concat_getElem?.1 hj with hj | ⟨rfl, hje⟩
        · exact ⟨j, hj, h3, ⟨w', h4, h5⟩, h6⟩
        · exfalso
          obtain ⟨e1, e2⟩ := e
          simp only at hje h3 h4 h5 h6
          subst hje
          rw [h4.unique hcw] at h5
          exact hno e2 ⟨h3, h5, h6⟩
    split
    · rename_i hc
      rw [hcond] at hc
      obtain ⟨c, hc1, hc2⟩ := candDot_exact hL hpl hs hn s.2
      rw [hc2, ok_bind, Ok_pure]
      refine ⟨by simp; omega, ?_⟩
      simp only
      split
      · rename_i hok
        refine ⟨pinsert_sorted hW h2.sorted, ?_⟩
        intro e
        rw [mem_pinsert hW, h2.mem]
        constructor
        · rintro (rfl | ⟨j, hj, h3⟩)
          · exact ⟨pre.length, concat_getElem?.2 (Or.inr ⟨rfl, rfl⟩), hc.1, ⟨w, hcw, hc.2⟩, (hc1 _).2 ⟨rfl, hok⟩⟩
          · exact ⟨j, concat_getElem?.2 (Or.inl hj), h3⟩
        · rintro ⟨j, hj, h3, h4, h5⟩
          rcases concat_getElem?.1 hj with hj | ⟨rfl, hje⟩
          · exact Or.inr ⟨j, hj, h3, h4, h5⟩
          · left
            obtain ⟨e1, e2⟩ := e
            simp only at hje h5
            subst hje
            rw [((hc1 _).1 h5).1]
      · rename_i hno
        exact hstay (fun c' hh => hno ((hc1 c').1 hh.2.2).2)
    · rename_i hc
      rw [Ok_pure]
      refine ⟨by simp; omega, ?_⟩
      exact hstay (fun c' hh => hc (hcond.2 ⟨hh.1, hh.2.1⟩))
  · intro r hr
    rw [Ok_pure]
    refine hr.congr ?_
    intro n c
    constructor
    · rintro ⟨j, hj, h3, ⟨w, h4, h5⟩, h6⟩
      exact ⟨h3, ⟨w, ⟨_, (faceAt_iff hL.crs hs hb).2 ⟨j, rfl, hj⟩, h4⟩, h5⟩, h6⟩
    · rintro ⟨h3, ⟨w, h4, h5⟩, h6⟩
      obtain ⟨k, hf, hk⟩ := h4
      obtain ⟨j, rfl, hj⟩ := (faceAt_iff hL.crs hs hb).1 hf
      exact ⟨j, hj, h3, ⟨w, hk, h5⟩, h6⟩

/-- direction of the line so far -/
def LineSt.dir (s : LineSt W) : Option (List W) := if s.empty then none else some s.prevDir

/-- state after `x` has been added in direction `d` -/
def LineSt.added (s : LineSt W) (x : Nat) (d : List W) : LineSt W :=
  { s with
    line := if s.opposite then x :: s.line else s.line ++ [x]
    seed := x
    toTreat := s.toTreat.set x false
    prevDir := d
    primalDir := if s.primalDir.isSome then s.primalDir else some d
    empty := false }

theorem extend_exact {L : LineEnv W} (hL : LineOk L) {s : LineSt W} (hs : s.seed < L.g.nbC) (hp : s.prevDir.length = L.ptsDim)
    (ht : s.toTreat.length = L.g.nbC) {x : Nat} (hx : x < L.g.nbC) :
    ∃ d, StepDir L.g s.seed x d ∧ s.extend L x = .ok (s.added x d) := by
  unfold LineSt.extend
  obtain ⟨d, hd, hsd, _⟩ := centerDirection_eq hL hx hs hp
  rw [wr_of_lt (by rw [ht]; exact hx), ok_bind, hd, ok_bind]
  exact ⟨d, hsd, rfl⟩

theorem lineStep_exact (hW : LawfulLt W) {L : LineEnv W} (hL : LineOk L) {coupling : Coupling}
    (hp : NonnegCouplings L.g coupling) {S : Nat → Prop} (hD : LineData L coupling S) {t0 : List Bool} {primal : Nat}
    {s s' : LineSt W} (h : LInv L t0 primal s) (hS : S s.seed) (he : lineStep L primal s = .ok s') :
    (∃ x d, NextCell L.g coupling L.force (freeIn s.toTreat) s.dir s.seed (some x) ∧ StepDir L.g s.seed x d ∧
      s' = s.added x d) ∨
    (NextCell L.g coupling L.force (freeIn s.toTreat) s.dir s.seed none ∧ s.turn primal = .ok s') := by
  obtain ⟨_, hs⟩ := h.seed_lt
  have hadd : ∀ {x : Nat}, freeIn s.toTreat x → s.extend L x = .ok s' → ∃ d, StepDir L.g s.seed x d ∧ s' = s.added x d := by
    intro x hx he
    have hxn : x < L.g.nbC := by rw [← h.len]; exact (List.getElem?_eq_some_iff.1 hx).1
    obtain ⟨d, h1, h2⟩ := extend_exact hL hs h.prev h.len hxn
    rw [h2] at he
    cases he
    exact ⟨d, h1, rfl⟩
  unfold lineStep firstCands at he
  by_cases hc : (!L.force || s.empty) = true
  · have hnc : L.force = false ∨ s.dir = none := by
      unfold LineSt.dir
      rw [Bool.or_eq_true, Bool.not_eq_true'] at hc
      rcases hc with hc | hc
      · exact Or.inl hc
      · right; rw [if_pos hc]
    have hmore : moreCands L s = .ok [] := by
      unfold moreCands
      rw [if_neg]
      · rfl
      · cases hf : L.force <;> cases hg : s.empty <;> simp_all
    rw [if_pos hc] at he
    obtain ⟨c, hceq, hcand⟩ := (candWeight_exact hW hL hp hD h.len hs hS).eq
    rw [hceq, ok_bind] at he
    match c, hcand with
    | e :: c, hcand =>
      have hb := hcand.best hW
      obtain ⟨d, h1, h2⟩ := hadd ((hcand.mem e).1 (by simp)).1 he
      exact Or.inl ⟨e.1, d, .strongest hnc hb, h1, h2⟩
    | [], hcand =>
      simp only at he
      rw [hmore, ok_bind] at he
      exact Or.inr ⟨.noStrong hnc hcand.none, he⟩
  · have hc1 : L.force = true := by cases hf : L.force <;> simp_all
    have hc2 : s.empty = false := by cases hf : s.empty <;> simp_all
    have hdir : s.dir = some s.prevDir := by unfold LineSt.dir; rw [hc2]; rfl
    rw [if_neg hc] at he
    obtain ⟨c, hceq, hcand⟩ := (candDir_exact hW hL hp hD h.len hs hS h.prev true).eq
    rw [hceq, ok_bind] at he
    have hcand := hcand.congr (R' := ByDirection L.g coupling (freeIn s.toTreat) s.prevDir s.seed) (by
      intro n c
      constructor
      · rintro ⟨h1, ⟨w, _, h3⟩, h4⟩; exact ⟨h1, ⟨w, h3 rfl⟩, h4⟩
      · rintro ⟨h1, ⟨w, h3⟩, h4⟩; exact ⟨h1, ⟨w, h3.1, fun _ => h3⟩, h4⟩)
    rw [hdir]
    match c, hcand with
    | e :: c, hcand =>
      obtain ⟨d, h1, h2⟩ := hadd ((hcand.mem e).1 (by simp)).1 he
      exact Or.inl ⟨e.1, d, .straight hc1 (hcand.best hW), h1, h2⟩
    | [], hcand =>
      simp only at he
      unfold moreCands at he
      rw [if_pos (by rw [hc1, hc2]; rfl)] at he
      obtain ⟨c', hceq', hcand'⟩ := (candDir_exact hW hL hp hD h.len hs hS h.prev false).eq
      rw [hceq', ok_bind] at he
      have hcand' := hcand'.congr (R' := AnyDirection L.g (freeIn s.toTreat) s.prevDir s.seed) (by
        intro n c
        constructor
        · rintro ⟨h1, ⟨w, ⟨k, hf, _⟩, _⟩, h4⟩; exact ⟨h1, hf.adj, h4⟩
        · rintro ⟨h1, h3, h4⟩
          obtain ⟨k, hf⟩ := faceAt_of_adj h3
          obtain ⟨w, _, hw⟩ := hD.ref _ hS k n hf
          exact ⟨h1, ⟨w, ⟨k, hf, hw⟩, fun e => by cases e⟩, h4⟩)
      match c', hcand' with
      | e :: c', hcand' =>
        obtain ⟨d, h1, h2⟩ := hadd ((hcand'.mem e).1 (by simp)).1 he
        exact Or.inl ⟨e.1, d, .loose hc1 hcand.none (hcand'.best hW), h1, h2⟩
      | [], hcand' => exact Or.inr ⟨.noWay hc1 hcand.none hcand'.none, he⟩

theorem turn_exact {s : LineSt W} {primal : Nat} {d : List W} (h1 : s.opposite = false) (h2 : s.seed ≠ primal)
    (h3 : s.primalDir = some d) (h4 : d.length = s.prevDir.length) :
    s.turn primal = .ok { s with seed := primal, prevDir := d.map Num.neg, opposite := true } := by
  unfold LineSt.turn
  rw [if_pos (by simp [h1, h2]), h3]
  show ((List.range s.prevDir.length).mapM (fun i => (do
      let x ← rd d i
      pure (Num.neg x) : M W)) >>= _) = _
  have : (List.range s.prevDir.length).mapM (fun i => (do
      let x ← rd d i
      pure (Num.neg x) : M W)) = .ok (d.map Num.neg) := by
    obtain ⟨r, hr, hp⟩ := (Ok.mapM (l := List.range s.prevDir.length) (f := fun i => (do
      let x ← rd d i
      pure (Num.neg x) : M W)) (P := fun i y => ∃ x, d[i]? = some x ∧ y = Num.neg x) (by
        intro i hi
        have hi' : i < d.length := by rw [h4]; simpa using hi
        rw [rd_of_lt hi', ok_bind, Ok_pure]
        exact ⟨d[i], by simp [hi'], rfl⟩)).eq
    rw [hr]
    congr 1
    have hlen : r.length = d.length := by rw [← hp.length_eq]; simp [h4]
    refine List.ext_getElem (by simp [hlen]) ?_
    intro i hi1 hi2
    have hi3 : i < (List.range s.prevDir.length).length := by rw [hp.length_eq]; exact hi1
    obtain ⟨x, hx, hy⟩ := (List.forall₂_iff_get.1 hp).2 i hi3 hi1
    simp only [List.get_eq_getElem, List.getElem_range] at hx hy
    rw [hy]
    have hid : i < d.length := by omega
    rw [List.getElem?_eq_getElem hid] at hx
    cases hx
    simp
  rw [this, ok_bind]
  rfl

theorem turn_stop {s s' : LineSt W} {primal : Nat} (h : s.opposite = true ∨ s.seed = primal) (he : s.turn primal = .ok s') :
    s' = { s with fin := true } := by
  unfold LineSt.turn at he
  rw [if_neg (by rcases h with h | h <;> simp [h])] at he
  cases he
  rfl

theorem freeIn_set {t : List Bool} {x : Nat} : freeIn (t.set x false) = fun n => freeIn t n ∧ n ≠ x := by
  funext n
  unfold freeIn
  rw [List.getElem?_set]
  by_cases hxn : x = n
  · subst hxn
    simp
  · rw [if_neg hxn]
    simp [Ne.symm hxn]

theorem lineLoop_fin {L : LineEnv W} {primal fuel : Nat} {s : LineSt W} (h : s.fin = true) : lineLoop L primal fuel s = .ok s := by
  unfold lineLoop
  rw [if_pos h]
  rfl

theorem loop_back (hW : LawfulLt W) {L : LineEnv W} (hL : LineOk L) {coupling : Coupling}
    (hp : NonnegCouplings L.g coupling) {S : Nat → Prop} (hD : LineData L coupling S) {t0 : List Bool} {primal : Nat}
    (hS : ∀ n : Nat, t0[n]? = some true → S n) :
    ∀ (fuel : Nat) (s s' : LineSt W), LInv L t0 primal s → s.opposite = true → s.fin = false → s.empty = false →
      lineLoop L primal fuel s = .ok s' →
      ∃ back, s'.line = back.reverse ++ s.line ∧
        LineWalk L.g coupling L.force (freeIn s.toTreat) (some s.prevDir) s.seed back := by
  intro fuel
  induction fuel with
  | zero => intro s s' _ _ hf _ he; unfold lineLoop at he; rw [hf] at he; cases he
  | succ fuel ih =>
    intro s s' h ho hf hem he
    unfold lineLoop at he
    rw [if_neg (by simp [hf])] at he
    simp only at he
    obtain ⟨s1, hs1, hI, _⟩ := (lineStep_ok hL h hf).eq
    rw [hs1, ok_bind] at he
    have hdir : s.dir = some s.prevDir := by unfold LineSt.dir; rw [hem]; rfl
    rcases lineStep_exact hW hL hp hD h (hS _ (h.mem _ h.seed_lt.1)) hs1 with ⟨x, d, hn, hd, rfl⟩ | ⟨hn, htn⟩
    · obtain ⟨back, hb1, hb2⟩ := ih _ s' hI ho hf rfl he
      refine ⟨x :: back, ?_, ?_⟩
      · rw [hb1]
        show back.reverse ++ (if s.opposite then x :: s.line else s.line ++ [x]) = _
        rw [ho]; simp
      · rw [hdir] at hn
        refine .step hn hd ?_
        rw [← freeIn_set]
        exact hb2
    · have := turn_stop (Or.inl ho) htn
      subst this
      rw [lineLoop_fin rfl] at he
      cases he
      rw [hdir] at hn
      exact ⟨[], rfl, .stop hn⟩

theorem loop_front (hW : LawfulLt W) {L : LineEnv W} (hL : LineOk L) {coupling : Coupling}
    (hp : NonnegCouplings L.g coupling) {S : Nat → Prop} (hD : LineData L coupling S) {t0 : List Bool} {primal : Nat}
    (hS : ∀ n : Nat, t0[n]? = some true → S n) :
    ∀ (fuel : Nat) (s s' : LineSt W), LInv L t0 primal s → s.opposite = false → s.fin = false →
      (s.empty = true ↔ s.seed = primal) → (s.empty = true → s.primalDir = none) →
      lineLoop L primal fuel s = .ok s' →
      ∃ ys, LineWalk L.g coupling L.force (freeIn s.toTreat) s.dir s.seed ys ∧
        ((ys = [] ∧ s.empty = true ∧ s'.line = s.line) ∨
          ∃ d back, (s.empty = false → s.primalDir = some d) ∧
            (s.empty = true → ∃ x rest, ys = x :: rest ∧ StepDir L.g s.seed x d) ∧
            LineWalk L.g coupling L.force (fun n => freeIn s.toTreat n ∧ n ∉ ys) (some (d.map Num.neg)) primal back ∧
            s'.line = back.reverse ++ (s.line ++ ys)) := by
  intro fuel
  induction fuel with
  | zero => intro s s' _ _ hf _ _ he; unfold lineLoop at he; rw [hf] at he; cases he
  | succ fuel ih =>
    intro s s' h ho hf hem hpd he
    unfold lineLoop at he
    rw [if_neg (by simp [hf])] at he
    simp only at he
    obtain ⟨s1, hs1, hI, _⟩ := (lineStep_ok hL h hf).eq
    rw [hs1, ok_bind] at he
    rcases lineStep_exact hW hL hp hD h (hS _ (h.mem _ h.seed_lt.1)) hs1 with ⟨x, d, hn, hd, rfl⟩ | ⟨hn, htn⟩
    · have hxne : x ≠ primal := by
        intro e
        have hnd := hI.nodup
        have hline : (s.added x d).line = s.line ++ [x] := by
          show (if s.opposite then x :: s.line else s.line ++ [x]) = _
          rw [ho]; rfl
        rw [hline, List.nodup_append] at hnd
        exact hnd.2.2 primal h.prim x (by simp) e.symm
      have hline : (s.added x d).line = s.line ++ [x] := by
        show (if s.opposite then x :: s.line else s.line ++ [x]) = _
        rw [ho]; rfl
      obtain ⟨ys, hw, hrest⟩ := ih _ s' hI ho hf
        ⟨fun e => (by cases e), fun e => absurd e hxne⟩ (fun e => (by cases e)) he
      refine ⟨x :: ys, .step hn hd ?_, Or.inr ?_⟩
      · rw [← freeIn_set]; exact hw
      · rcases hrest with ⟨_, e, _⟩ | ⟨d', back, h1, _, h3, h4⟩
        · cases e
        · have hd' := h1 rfl
          have hpd' : (if s.primalDir.isSome then s.primalDir else some d) = some d' := hd'
          refine ⟨d', back, ?_, ?_, ?_, ?_⟩
          · intro hne
            have : s.primalDir.isSome = true := h.some (fun e => by rw [hem.2 e] at hne; cases hne)
            rw [if_pos this] at hpd'
            exact hpd'
          · intro hne
            rw [hpd hne] at hpd'
            simp only [Option.isSome_none, Bool.false_eq_true, if_false, Option.some.injEq] at hpd'
            subst hpd'
            exact ⟨x, ys, rfl, hd⟩
          · have hfe : (fun n => freeIn s.toTreat n ∧ n ∉ x :: ys) =
                (fun n => freeIn (s.added x d).toTreat n ∧ n ∉ ys) := by
              funext n
              rw [show (s.added x d).toTreat = s.toTreat.set x false from rfl, freeIn_set]
              simp only [List.mem_cons, not_or, eq_iff_iff]
              constructor
              · rintro ⟨a, b, c⟩; exact ⟨⟨a, b⟩, c⟩
              · rintro ⟨⟨a, b⟩, c⟩; exact ⟨a, b, c⟩
            rw [hfe]
            exact h3
          · rw [h4, hline]; simp
    · refine ⟨[], .stop hn, ?_⟩
      by_cases hsp : s.seed = primal
      · have := turn_stop (Or.inr hsp) htn
        subst this
        rw [lineLoop_fin rfl] at he
        cases he
        exact Or.inl ⟨rfl, hem.2 hsp, rfl⟩
      · have hef : s.empty = false := by
          cases hc : s.empty with
          | false => rfl
          | true => exact absurd (hem.1 hc) hsp
        obtain ⟨d, hd⟩ := Option.isSome_iff_exists.1 (h.some hsp)
        rw [turn_exact ho hsp hd (by rw [h.first d hd, h.prev])] at htn
        cases htn
        obtain ⟨back, hb1, hb2⟩ := loop_back hW hL hp hD hS _ _ _ hI rfl hf hef he
        refine Or.inr ⟨d, back, fun _ => hd, fun e => (by rw [hef] at e; cases e), ?_, ?_⟩
        · have : (fun n => freeIn s.toTreat n ∧ n ∉ ([] : List Nat)) = freeIn s.toTreat := by
            funext n; simp
          rw [this]
          exact hb2
        · rw [hb1]; simp

theorem buildLine_exact (hW : LawfulLt W) {L : LineEnv W} (hL : LineOk L) {coupling : Coupling}
    (hp : NonnegCouplings L.g coupling) {S : Nat → Prop} (hD : LineData L coupling S) {t0 : List Bool}
    (ht : t0.length = L.g.nbC) {primal : Nat} (hpr : t0[primal]? = some true)
    (hS : ∀ n : Nat, t0[n]? = some true → S n) {r : List Nat × List Bool} (he : buildLine L t0 primal = .ok r) :
    LineFrom L.g coupling L.force (freeIn t0) primal r.1 := by
  unfold buildLine at he
  have hpn : primal < L.g.nbC := by rw [← ht]; exact (List.getElem?_eq_some_iff.1 hpr).1
  rw [wr_of_lt (by rw [ht]; exact hpn), ok_bind, bind_ok_iff] at he
  obtain ⟨s', hs', he⟩ := he
  cases he
  have hI : LInv L t0 primal (⟨[primal], primal, t0.set primal false, false, List.replicate L.ptsDim (Num.ofNat 0), none,
      true, false⟩ : LineSt W) := by
    refine ⟨by simp [ht], ?_, by simpa using hpr, by simp, ?_, by simp, by simp, by simp, by simp, by simp, by simp, ht⟩
    · intro i
      simp only [List.getElem?_set]
      by_cases hpi : primal = i
      · subst hpi; simp [ht, hpn]
      · have : ¬ i = primal := fun he => hpi he.symm
        simp [hpi, this]
    · intro k x y hx hy
      simp at hy
  obtain ⟨ys, hw, hrest⟩ := loop_front hW hL hp hD hS _ _ s' hI rfl rfl (by simp) (fun _ => rfl) hs'
  simp only [freeIn_set] at hw hrest
  rcases hrest with ⟨rfl, _, hl⟩ | ⟨d, back, _, h2, h3, h4⟩
  · rw [hl]
    exact .alone hw
  · obtain ⟨x, rest, rfl, hd⟩ := h2 trivial
    rw [h4]
    exact .both hw hd h3

theorem buildFrom_exact (hW : LawfulLt W) {L : LineEnv W} (hL : LineOk L) {coupling : Coupling}
    (hp : NonnegCouplings L.g coupling) {S : Nat → Prop} (hD : LineData L coupling S) {t0 : List Bool}
    (ht : t0.length = L.g.nbC) (hS : ∀ n : Nat, t0[n]? = some true → S n) {seeds : List Nat}
    (hs : ∀ x ∈ seeds, x < L.g.nbC) :
    Ok (buildFrom L seeds t0) (fun r => LinesFrom L.g coupling L.force (freeIn t0) seeds r.1) := by
  unfold buildFrom
  suffices H : ∀ (seeds : List Nat) (acc : List (List Nat)) (t : List Bool), t.length = L.g.nbC →
      (∀ n : Nat, t[n]? = some true → S n) → (∀ x ∈ seeds, x < L.g.nbC) →
      Ok (seeds.foldlM (fun (s : List (List Nat) × List Bool) i => do
        let t ← rd s.2 i
        if t then do
          let r ← buildLine L s.2 i
          pure (if 1 < r.1.length then s.1 ++ [r.1] else s.1, r.2)
        else pure s) (acc, t)) (fun r => ∃ ls, r.1 = acc ++ ls ∧ LinesFrom L.g coupling L.force (freeIn t) seeds ls) by
    refine Ok.mono (H seeds [] t0 ht hS hs) ?_
    rintro r ⟨ls, h1, h2⟩
    rw [h1]; simpa using h2
  intro seeds
  induction seeds with
  | nil => intro acc t _ _ _; exact ⟨[], by simp, .done⟩
  | cons i rest ih =>
    intro acc t ht hS hs
    have hin := hs i (by simp)
    have hrest : ∀ x ∈ rest, x < L.g.nbC := fun x hx => hs x (by simp [hx])
    rw [List.foldlM_cons]
    simp only
    rw [rd_of_lt (by rw [ht]; exact hin), ok_bind]
    by_cases hti : t[i] = true
    · rw [if_pos hti]
      have hti' : t[i]? = some true := by rw [List.getElem?_eq_getElem (by rw [ht]; exact hin), hti]
      obtain ⟨⟨line, t'⟩, heq, h1, h2, h3, h4, h5, h6⟩ := (buildLine_ok hL ht hti').eq
      have hline := buildLine_exact hW hL hp hD ht hti' hS heq
      rw [heq]
      show Ok (rest.foldlM _ _) _
      simp only at h1 h2 h3 h4 h5 h6 hline ⊢
      have hfree : freeIn t' = fun n => freeIn t n ∧ n ∉ line := by
        funext n
        exact propext (h6 n)
      by_cases hlen : 1 < line.length
      · rw [if_pos hlen]
        refine Ok.mono (ih (acc ++ [line]) t' h1 (fun n hn => hS n ((h6 n).1 hn).1) hrest) ?_
        rintro r ⟨ls, e1, e2⟩
        refine ⟨line :: ls, by rw [e1]; simp, .line hti' hline hlen ?_⟩
        rw [← hfree]; exact e2
      · rw [if_neg hlen]
        have hl1 : line = [i] := by
          match line, h2, hlen with
          | [a], h2, _ => simp at h2; rw [h2]
          | _ :: _ :: _, _, hlen => simp at hlen
        refine Ok.mono (ih acc t' h1 (fun n hn => hS n ((h6 n).1 hn).1) hrest) ?_
        rintro r ⟨ls, e1, e2⟩
        subst hl1
        refine ⟨ls, e1, .single hti' hline ?_⟩
        have : (fun n => freeIn t n ∧ n ≠ i) = freeIn t' := by
          rw [hfree]; funext n; simp
        rw [this]; exact e2
    · rw [if_neg hti]
      show Ok (rest.foldlM _ _) _
      refine Ok.mono (ih acc t ht hS hrest) ?_
      rintro r ⟨ls, e1, e2⟩
      refine ⟨ls, e1, .taken ?_ e2⟩
      intro hf
      unfold freeIn at hf
      rw [List.getElem?_eq_getElem (by rw [ht]; exact hin)] at hf
      exact hti (by simpa using hf)

end CoMMA
