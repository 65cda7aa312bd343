import Verif.Lemmas.GreedyRun
import Verif.Lemmas.Outcome
import Verif.Lemmas.PoolSteps
/-! # Trace of the isotropic loop -/

set_option linter.unusedSectionVars false

namespace CoMMA

variable {W F : Type} [Num W]

/-- the container agrees with the trace -/
structure TrInv (E : IsoEnv W F) (c0 : Cont) (p0 : Pool) (cs : List (Nat × NSet)) (c : Cont) (p : Pool) : Prop where
  trace : IsoTrace E (GrownGreedily E) c0.agg p0 cs c.agg p
  counter : c.counter = c0.counter + cs.length
  get : ∀ (i j : Nat), c.fc2cc[i]? = some (some (c0.counter + j)) ↔ ∃ e, cs[j]? = some e ∧ i ∈ e.2

theorem PoolRun.shape {c : PoolCfg W} {n : Nat} (hc : PoolInput c n) (hp : PrioritiesOk c) {p : Pool} {agg : List Bool}
    {b : Bool} (h : PoolRun c n p agg b) : agg.length = n ∧ QOk n p.queues ∧ TopOk c n p.top := by
  obtain ⟨h1, h2, _⟩ := h.inv hc hp
  exact ⟨h1, h2.q, h2.top⟩

theorem joinedInTurn (hW : LawfulLt W) {c : PoolCfg W} {n : Nat} (hc : PoolInput c n) (hp : PrioritiesOk c) {hh : Hash}
    {agg : List Bool} {gs : List NSet} (hg : ∀ t ∈ gs, ∀ x ∈ t, x < n) {p p' : Pool} {b : Bool}
    (h : PoolRun c n p agg b) (hf : gs.foldlM (fun p t => p.orderUpdate c hh t) p = .ok p') :
    JoinedInTurn c gs p p' := by
  induction gs generalizing p with
  | nil => cases hf; exact .none
  | cons t gs ih =>
    rw [List.foldlM_cons] at hf
    obtain ⟨p1, h1, h2⟩ := bind_ok_iff.1 hf
    have ht := hg t (by simp)
    exact .next ((orderUpdate_exact hW hc hh (h.shape hc hp).2.1.1 ht).elim h1)
      (ih (fun u hu => hg u (by simp [hu])) (.orderUpdate h ht h1) h2)

theorem SeedsPushed.queued {E : IsoEnv W F} (hE : IsoInput E) (hW : LawfulLt W) {agg : List Bool} {seed order : Nat}
    {s : NSet} {p p' : Pool} {b : Bool} (h : PoolRun E.pool E.g.nbC p agg b)
    (hs : SeedsPushed E agg seed order s p p') : SeedsQueued E agg seed order s p p' := by
  obtain ⟨gs, h1, h2, h3, h4, h5⟩ := hs
  refine ⟨gs, h1, h2, h3, h4, joinedInTurn hW hE.pool hE.prio ?_ h h5⟩
  intro t ht x hx
  obtain ⟨_, h6, _⟩ := (h2 x).1 ⟨t, ht, hx⟩
  have := (List.getElem?_eq_some_iff.1 h6).1
  rw [(h.shape hE.pool hE.prio).1] at this
  exact this

theorem isoStep_trace {E : IsoEnv W F} (hE : IsoInput E) (hW : LawfulLt W)
    (hu : UniqueRows E.g.rowPtr E.g.colInd) (hl : NoSelfLoop E.g.rowPtr E.g.colInd) {c0 c : Cont} (h : IInv E c0 c)
    {p p0 : Pool} (hp : PoolRun E.pool E.g.nbC p c.agg true) {cs : List (Nat × NSet)}
    (ht : TrInv E c0 p0 cs c p) {r : Cont × Pool} (hr : isoStep E c p = .ok r) :
    ∃ e, TrInv E c0 p0 (cs ++ [e]) r.1 r.2 := by
  unfold isoStep at hr
  obtain ⟨⟨o, p1⟩, hch, hr⟩ := bind_ok_iff.1 hr
  obtain ⟨_, _, hr⟩ := bind_ok_iff.1 hr
  obtain ⟨seed, hv, hr⟩ := bind_ok_iff.1 hr
  have ho : o = some seed := by
    cases o with
    | none => cases hv
    | some x => cases hv; rfl
  subst ho
  obtain ⟨⟨s, k, p2⟩, hopt, hr⟩ := bind_ok_iff.1 hr
  obtain ⟨⟨id, c'⟩, hcr, hr⟩ := bind_ok_iff.1 hr
  cases hr
  simp only at hopt hcr ⊢
  obtain ⟨_, _, hch', _, hsome⟩ := C06_choose_new_seed hE.pool hE.prio hp
  have hseed : c.agg[seed]? = some false := by
    rw [hch] at hch'; cases hch'; exact hsome seed rfl
  obtain ⟨s1, s2, s3⟩ := hp.shape hE.pool hE.prio
  have hcx := (choose_exact hW hE.pool s1 s2 s3).elim hch
  obtain ⟨order, hg, hq⟩ := chooseOptimal_greedy hE hW hu hl h.cinv.lenA hseed hopt
  have hprop := ((chooseOptimal_ok hE h.cinv.lenA hseed (poolStable hE c.agg) (hp.choose hch)).elim hopt).1
  have hpos : 0 < s.card := NSet.card_pos_iff.2 ⟨_, hprop.mem⟩
  obtain ⟨_, hci, hcr'⟩ := (create_spec h.cinv hpos hprop.free k false).elim hcr
  refine ⟨(seed, s), .turn ht.trace hcx hg (hq.queued hE hW (hp.choose hch)) hcr'.agg, ?_, ?_⟩
  · rw [hcr'.counter, ht.counter, List.length_append, List.length_singleton]; omega
  · intro i j
    rw [hcr'.fc2cc, ht.counter]
    split
    · rename_i hi
      have hnew : ∀ j : Nat, ¬ ∃ e, cs[j]? = some e ∧ i ∈ e.2 := by
        intro j hj
        have h1 := (ht.get i j).2 hj
        have h2 := (h.cinv.agg i).2 ⟨_, h1⟩
        rw [hprop.free i hi] at h2; cases h2
      constructor
      · intro hj
        have : j = cs.length := by
          simp only [Option.some.injEq] at hj; omega
        subst this
        exact ⟨(seed, s), by simp, hi⟩
      · rintro ⟨e, he, hie⟩
        rcases Nat.lt_trichotomy j cs.length with hj | hj | hj
        · rw [List.getElem?_append_left hj] at he
          exact absurd ⟨e, he, hie⟩ (hnew j)
        · rw [hj]
        · rw [List.getElem?_eq_none (by simp; omega)] at he; cases he
    · rename_i hi
      rw [ht.get]
      constructor
      · rintro ⟨e, he, hie⟩
        have hj := (List.getElem?_eq_some_iff.1 he).1
        exact ⟨e, by rw [List.getElem?_append_left hj]; exact he, hie⟩
      · rintro ⟨e, he, hie⟩
        rcases Nat.lt_trichotomy j cs.length with hj | hj | hj
        · rw [List.getElem?_append_left hj] at he
          exact ⟨e, he, hie⟩
        · subst hj
          simp only [List.getElem?_concat_length, Option.some.injEq] at he
          subst he
          exact absurd hie hi
        · rw [List.getElem?_eq_none (by simp; omega)] at he; cases he

theorem isoLoop_trace {E : IsoEnv W F} (hE : IsoInput E) (hW : LawfulLt W)
    (hu : UniqueRows E.g.rowPtr E.g.colInd) (hl : NoSelfLoop E.g.rowPtr E.g.colInd) {c0 : Cont} {p0 : Pool}
    (fuel : Nat) {c : Cont} (h : IInv E c0 c) {p : Pool}
    (hp : PoolRun E.pool E.g.nbC p c.agg true) {cs : List (Nat × NSet)} (ht : TrInv E c0 p0 cs c p)
    {r : Cont × Pool} (hr : isoLoop E fuel c p = .ok r) : ∃ cs', TrInv E c0 p0 cs' r.1 r.2 := by
  induction fuel generalizing c p cs with
  | zero =>
    unfold isoLoop at hr
    split at hr
    · cases hr
    · cases hr; exact ⟨cs, ht⟩
  | succ fuel ih =>
    unfold isoLoop at hr
    split at hr
    · rename_i hlt
      obtain ⟨r1, hr1, hr⟩ := bind_ok_iff.1 hr
      obtain ⟨h1, h2, _⟩ := (isoStep_inv hE h hp hlt).elim hr1
      obtain ⟨e, he⟩ := isoStep_trace hE hW hu hl h hp ht hr1
      exact ih h1 h2 he hr
    · cases hr; exact ⟨cs, ht⟩

theorem isoRun_trace {E : IsoEnv W F} (hE : IsoInput E) (hW : LawfulLt W)
    (hu : UniqueRows E.g.rowPtr E.g.colInd) (hl : NoSelfLoop E.g.rowPtr E.g.colInd) {c : Cont}
    (h : CInv E.g.nbC c) {p : Pool} (hp : PoolRun E.pool E.g.nbC p c.agg true) {r : Cont × Pool}
    (hr : isoRun E c p = .ok r) : ∃ cs, TrInv E c p cs r.1 r.2 := by
  unfold isoRun at hr
  obtain ⟨⟨c1, p1⟩, h1, hr⟩ := bind_ok_iff.1 hr
  have ht0 : TrInv E c p [] c p := by
    refine ⟨.start, by simp, fun i j => ?_⟩
    constructor
    · intro hi
      have := h.range i _ hi
      omega
    · rintro ⟨e, he, _⟩; simp at he
  obtain ⟨cs, ht⟩ := isoLoop_trace hE hW hu hl _ (IInv_refl h) hp ht0 h1
  have hi := (isoLoop_inv hE E.g.nbC (IInv_refl h) hp (by omega)).elim h1
  obtain ⟨c2, h2, hr⟩ := bind_ok_iff.1 hr
  cases hr
  have : c2 = c1 := by
    unfold Cont.createDelayed at h2
    simp only at h2
    rw [hi.1.cinv.delayed] at h2
    simp only [List.foldlM_nil, pure_bind] at h2
    cases h2
    rw [← hi.1.cinv.delayed]
  exact ⟨cs, by simp only; rw [this]; exact ht⟩

/-- cells taken after a trace -/
theorem IsoTrace.taken {E : IsoEnv W F} {G : NMap Nat → Nat → List Nat → Prop} {agg0 : List Bool} {p0 : Pool} {cs : List (Nat × NSet)} {agg : List Bool} {p : Pool}
    (h : IsoTrace E G agg0 p0 cs agg p) (i : Nat) :
    ((∃ e ∈ cs, i ∈ e.2) → agg[i]? = some true) ∧ ((¬ ∃ e ∈ cs, i ∈ e.2) → agg[i]? = agg0[i]?) := by
  induction h with
  | start => simp
  | @turn cs agg agg' p p1 p2 seed order s _ _ _ _ hag ih =>
    rw [hag]
    split
    · rename_i hi
      exact ⟨fun _ => rfl, fun hno => absurd ⟨(seed, s), by simp, hi⟩ hno⟩
    · rename_i hi
      have hiff : (∃ e ∈ cs ++ [(seed, s)], i ∈ e.2) ↔ ∃ e ∈ cs, i ∈ e.2 := by
        constructor
        · rintro ⟨e, he, hie⟩
          rcases List.mem_append.1 he with he | he
          · exact ⟨e, he, hie⟩
          · rw [List.mem_singleton] at he; subst he; exact absurd hie hi
        · rintro ⟨e, he, hie⟩; exact ⟨e, List.mem_append_left _ he, hie⟩
      rw [hiff]
      exact ih

/-- the turn that made a coarse cell -/
theorem IsoTrace.at {E : IsoEnv W F} {G : NMap Nat → Nat → List Nat → Prop} {agg0 : List Bool} {p0 : Pool} {cs : List (Nat × NSet)} {agg : List Bool} {p : Pool}
    (h : IsoTrace E G agg0 p0 cs agg p) {k : Nat} {e : Nat × NSet} (hk : cs[k]? = some e) :
    ∃ agg' p' order, IsoTrace E G agg0 p0 (cs.take k) agg' p' ∧ GrownCell E G agg' e.1 order e.2 := by
  induction h with
  | start => simp at hk
  | @turn cs agg agg' p p1 p2 seed order s ht _ hg _ _ ih =>
    rcases Nat.lt_trichotomy k cs.length with hj | hj | hj
    · rw [List.getElem?_append_left hj] at hk
      rw [List.take_append_of_le_length (by omega)]
      exact ih hk
    · subst hj
      simp only [List.getElem?_concat_length, Option.some.injEq] at hk
      subst hk
      rw [List.take_left']
      · exact ⟨agg, p, order, ht, hg⟩
      · rfl
    · rw [List.getElem?_eq_none (by simp; omega)] at hk; cases hk

end CoMMA
