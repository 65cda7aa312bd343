import Verif.Lemmas.SeedsPool
/-! # Invariant of the seeds pools -/

set_option linter.unusedSectionVars false

namespace CoMMA

variable {W : Type} [Num W]

/-- all the cells held by queue `k` satisfy `P k` -/
def QAll (P : Nat → Nat → Prop) (qs : List (List Nat)) : Prop :=
  qs.length = 4 ∧ ∀ k q, qs[k]? = some q → ∀ i ∈ q, P k i

theorem QAll.rd {P : Nat → Nat → Prop} {qs : List (List Nat)} (h : QAll P qs) {k : Nat} (hk : k < 4) :
    ∃ q, rd qs k = .ok q ∧ qs[k]? = some q ∧ ∀ i ∈ q, P k i := by
  have hlt : k < qs.length := by rw [h.1]; exact hk
  exact ⟨qs[k], rd_of_lt hlt, by simp [hlt], h.2 k _ (by simp [hlt])⟩

theorem QAll.set {P : Nat → Nat → Prop} {qs : List (List Nat)} (h : QAll P qs) {k : Nat} {q : List Nat}
    (hq : ∀ i ∈ q, P k i) : QAll P (qs.set k q) := by
  refine ⟨by simp [h.1], fun j r hr => ?_⟩
  rw [List.getElem?_set] at hr
  split at hr
  · rename_i hkj; subst hkj
    split at hr
    · cases hr; exact hq
    · cases hr
  · exact h.2 j r hr

theorem QAll.wr {P : Nat → Nat → Prop} {qs : List (List Nat)} (h : QAll P qs) {k : Nat} (hk : k < 4) {q : List Nat}
    (hq : ∀ i ∈ q, P k i) : wr qs k q = .ok (qs.set k q) ∧ QAll P (qs.set k q) :=
  ⟨wr_of_lt (by rw [h.1]; exact hk), h.set hq⟩

theorem QAll.push {P : Nat → Nat → Prop} {qs : List (List Nat)} (h : QAll P qs) {k : Nat} (hk : k < 4) {l : List Nat}
    (hl : ∀ i ∈ l, P k i) : Ok (pushTo qs k l) (QAll P) := by
  obtain ⟨q, h1, _, h3⟩ := h.rd hk
  unfold pushTo
  rw [h1]
  simp only [ok_bind]
  obtain ⟨h4, h5⟩ := h.wr hk (q := q ++ l) (by
    intro i hi
    rcases List.mem_append.1 hi with hi | hi
    · exact h3 i hi
    · exact hl i hi)
  rw [h4]; exact h5

theorem QAll.mono {P Q : Nat → Nat → Prop} {qs : List (List Nat)} (h : QAll P qs)
    (hi : ∀ k i, P k i → Q k i) : QAll Q qs :=
  ⟨h.1, fun k q hq i hiq => hi k i (h.2 k q hq i hiq)⟩

theorem QAll_new (P : Nat → Nat → Prop) : QAll P Pool.new.queues := by
  refine ⟨rfl, fun k q hq i hi => ?_⟩
  have : q = [] := by
    have := List.mem_of_getElem? hq
    simpa [Pool.new] using this
  subst this; cases hi

/-- the top queue never exceeds the boundary count of every cell -/
def TopOk (c : PoolCfg W) (n : Nat) (o : Option Nat) : Prop :=
  ∀ t, o = some t → ∃ i < n, t ≤ c.nb i

theorem TopOk.lt4 {c : PoolCfg W} {n t : Nat} (h : c.Sized n) (ht : TopOk c n (some t)) : t < 4 := by
  obtain ⟨i, hi, hti⟩ := ht t rfl
  have := h.le3 i hi
  omega

/-- invariant of a pool: queues hold what `P` allows, the top queue exists -/
structure PInv (c : PoolCfg W) (n : Nat) (P : Nat → Nat → Prop) (p : Pool) : Prop where
  q : QAll P p.queues
  top : TopOk c n p.top

/-- number of boundary faces of every free cell is at most `t` -/
def Dominates (c : PoolCfg W) (n : Nat) (agg : List Bool) (t : Nat) : Prop :=
  ∀ i < n, isAgg agg i = false → c.nb i ≤ t

theorem maxElem_spec {v : List Nat} (hv : v ≠ []) :
    Ok (maxElem v) (fun m => m ∈ v ∧ ∀ x ∈ v, x ≤ m) := by
  cases v with
  | nil => exact absurd rfl hv
  | cons x xs =>
    simp only [maxElem, Ok_ok]
    clear hv
    induction xs using List.reverseRecOn with
    | nil => simp
    | append_singleton xs y ih =>
      rw [List.foldl_append]
      simp only [List.foldl_cons, List.foldl_nil]
      obtain ⟨h1, h2⟩ := ih
      refine ⟨?_, fun z hz => ?_⟩
      · rcases Nat.le_total (List.foldl max x xs) y with h | h
        · rw [Nat.max_eq_right h]; simp
        · rw [Nat.max_eq_left h]
          rcases List.mem_cons.1 h1 with h1 | h1
          · rw [h1]; simp
          · simp [h1]
      · simp only [List.mem_cons, List.mem_append, List.not_mem_nil, or_false] at hz
        rcases hz with rfl | hz | rfl
        · exact Nat.le_trans (h2 z (by simp)) (Nat.le_max_left _ _)
        · exact Nat.le_trans (h2 z (by simp [hz])) (Nat.le_max_left _ _)
        · exact Nat.le_max_right _ _

theorem mem_nBnd_iff {c : PoolCfg W} {n : Nat} (h : c.Sized n) {b : Nat} :
    b ∈ c.nBnd ↔ ∃ i < n, c.nb i = b := by
  rw [List.mem_iff_getElem?]
  constructor
  · rintro ⟨i, hi⟩
    refine ⟨i, ?_, by simp [PoolCfg.nb, hi]⟩
    by_contra hc
    rw [List.getElem?_eq_none (by rw [h.bnd]; omega)] at hi; cases hi
  · rintro ⟨i, hi, rfl⟩
    refine ⟨i, ?_⟩
    have : i < c.nBnd.length := by rw [h.bnd]; exact hi
    simp [PoolCfg.nb, this]

/-- one-point initialisation is safe: the weights are not below the smallest positive
number and indices are below their maximum -/
def InitOk (c : PoolCfg W) (n : Nat) : Prop :=
  c.onePoint = true → n ≤ c.idxMax ∧ ∀ i < n, Num.lt (c.w i) Num.lmin = false

/-- what the one-point initialisation appends -/
theorem onePointInit_spec {c : PoolCfg W} {n : Nat} (h : c.Sized n) (t : Nat) (q : List Nat)
    (ht : ∃ i < n, t ≤ c.nb i) (hi : n ≤ c.idxMax ∧ ∀ i < n, Num.lt (c.w i) Num.lmin = false) :
    Ok (onePointInit c t q) (fun r => ∃ s < n, t ≤ c.nb s ∧ r = q ++ [s]) := by
  unfold onePointInit
  rw [h.bnd]
  refine Ok.bind (Ok.foldlM_prefix (I := fun pre m =>
      (m = (c.idxMax, Num.lmin) ∧ ∀ i ∈ pre, ¬ t ≤ c.nb i) ∨ (m.1 < n ∧ t ≤ c.nb m.1)) ?_ ?_) ?_
  · exact Or.inl ⟨rfl, by simp⟩
  · intro pre i post m hl hI
    have hin : i < n := by
      have : i ∈ List.range n := by rw [hl]; simp
      simpa using this
    rw [h.rdW hin, h.rdB hin]
    simp only [ok_bind, Ok_pure]
    by_cases hb : t ≤ c.nb i
    · rcases hI with ⟨rfl, hpre⟩ | hI
      · have hg : greaterPair (i, c.w i) (c.idxMax, (Num.lmin : W)) = true := by
          unfold greaterPair
          split
          · rfl
          · simp only [hi.2 i hin]
            simp; omega
        simp only [hb, hg]
        exact Or.inr ⟨hin, hb⟩
      · split
        · exact Or.inr ⟨hin, hb⟩
        · exact Or.inr hI
    · have : (decide (t ≤ c.nb i) && greaterPair (i, c.w i) m) = false := by simp [hb]
      rw [if_neg (by simp [this])]
      rcases hI with ⟨h1, h2⟩ | hI
      · refine Or.inl ⟨h1, fun j hj => ?_⟩
        rcases List.mem_append.1 hj with hj | hj
        · exact h2 j hj
        · have : j = i := by simpa using hj
          rw [this]; exact hb
      · exact Or.inr hI
  · rintro m (⟨_, hm⟩ | ⟨h1, h2⟩)
    · obtain ⟨i, hi, hti⟩ := ht
      exact absurd hti (hm i (by simpa using hi))
    · exact ⟨m.1, h1, h2, rfl⟩

/-- `initialize` returns and keeps the invariant -/
theorem initialize_spec {c : PoolCfg W} {n : Nat} (h : c.Sized n) (hn : 0 < n) (hio : InitOk c n)
    {P : Nat → Nat → Prop} {p : Pool} (hp : PInv c n P p)
    (hP : ∀ t, (p.top = some t ∨ (p.top = none ∧ ∀ i < n, c.nb i ≤ t)) → ∀ i < n, t ≤ c.nb i → P t i) :
    Ok (p.initialize c) (fun p' => PInv c n P p' ∧ ∃ t, p'.top = some t ∧
      (p.top = some t ∨ (p.top = none ∧ (∃ i < n, c.nb i = t) ∧ ∀ i < n, c.nb i ≤ t))) := by
  have hmain : ∀ t, TopOk c n (some t) →
      (p.top = some t ∨ (p.top = none ∧ (∃ i < n, c.nb i = t) ∧ ∀ i < n, c.nb i ≤ t)) →
      Ok (p.initAt c t) (fun p' => PInv c n P p' ∧ ∃ t, p'.top = some t ∧
          (p.top = some t ∨ (p.top = none ∧ (∃ i < n, c.nb i = t) ∧ ∀ i < n, c.nb i ≤ t))) := by
    intro t ht htop
    have ht4 := ht.lt4 h
    obtain ⟨q, h1, h2, h3⟩ := hp.q.rd ht4
    unfold Pool.initAt
    rw [h1]
    simp only [ok_bind]
    have hPt : ∀ i < n, t ≤ c.nb i → P t i := hP t (by
      rcases htop with h' | h'
      · exact Or.inl h'
      · exact Or.inr ⟨h'.1, h'.2.2⟩)
    have hq' : Ok (runInit c t q) (fun r => ∀ i ∈ r, P t i) := by
      unfold runInit
      by_cases ho : c.onePoint = true
      · rw [if_pos ho]
        refine (onePointInit_spec h t q (ht t rfl) (hio ho)).mono ?_
        rintro r ⟨s, hs, hts, rfl⟩ i hi
        rcases List.mem_append.1 hi with hi | hi
        · exact h3 i hi
        · have : i = s := by simpa using hi
          subst this; exact hPt i hs hts
      · rw [if_neg ho, fullInit_eq h]
        simp only [Ok_ok]
        intro i hi
        rcases List.mem_append.1 hi with hi | hi
        · exact h3 i hi
        · rw [mem_firsts_psetOf] at hi
          simp at hi
          exact hPt i hi.1 hi.2
    refine hq'.bind (fun r hr => ?_)
    obtain ⟨h4, h5⟩ := hp.q.wr ht4 hr
    rw [h4]
    exact ⟨⟨h5, ht⟩, t, rfl, htop⟩
  unfold Pool.initialize
  cases hpt : p.top with
  | some t =>
    rw [hpt] at hmain
    refine hmain t ?_ (Or.inl rfl)
    have := hp.top; rw [hpt] at this; exact this
  | none =>
    rw [hpt] at hmain
    show Ok (maxElem c.nBnd >>= fun t => p.initAt c t) _
    have hne : c.nBnd ≠ [] := by
      intro he; have := h.bnd; rw [he] at this; simp at this; omega
    refine (maxElem_spec hne).bind (fun m ⟨hm1, hm2⟩ => ?_)
    obtain ⟨i, hi, hib⟩ := (mem_nBnd_iff h).1 hm1
    refine hmain m ?_ (Or.inr ⟨rfl, ⟨i, hi, hib⟩, fun j hj => hm2 _ ((mem_nBnd_iff h).2 ⟨j, hj, rfl⟩)⟩)
    intro t ht; cases ht; exact ⟨i, hi, by omega⟩

/-- result of the common tail of `choose_new_seed` -/
theorem chooseFallback_spec {c : PoolCfg W} {n : Nat} (h : c.Sized n) {agg : List Bool} (ha : agg.length = n)
    {P : Nat → Nat → Prop} (hPn : ∀ k i, P k i → i < n)
    (hPb : ∀ i < n, isAgg agg i = false → P (c.nb i) i) {p : Pool} (hp : PInv c n P p) (t : Nat) :
    Ok (chooseFallback c agg p t) (fun r => PInv c n P r.2 ∧
      (r.1 = none ↔ ∀ i < n, isAgg agg i = true) ∧
      (∀ s, r.1 = some s → isAgg agg s = false ∧ ∃ k, r.2.top = some k ∧ P k s ∧
        (Dominates c n agg t → Dominates c n agg k))) := by
  unfold chooseFallback
  refine (highest_spec h ha t).bind (fun r ⟨hr1, hr2⟩ => ?_)
  cases r with
  | none =>
    simp only [Ok_pure]
    exact ⟨⟨hp.q, by intro t ht; cases ht⟩, by simpa using hr1, by simp⟩
  | some cur =>
    obtain ⟨⟨i0, hi0, hi0a, hi0b⟩, hdom⟩ := hr2 cur rfl
    have hcur : TopOk c n (some cur) := by intro t ht; cases ht; exact ⟨i0, hi0, by omega⟩
    have hcur4 := hcur.lt4 h
    have hnone : ¬ ∀ i < n, isAgg agg i = true := by
      intro hall; rw [hall i0 hi0] at hi0a; cases hi0a
    have hd : Dominates c n agg t → Dominates c n agg cur := by
      intro hdt
      rcases hdom with hge | hd
      · intro i hi hia; exact Nat.le_trans (hdt i hi hia) hge
      · exact hd
    obtain ⟨q, h1, h2, h3⟩ := hp.q.rd hcur4
    simp only
    rw [h1]
    simp only [ok_bind]
    rcases spoil_spec ha (q := q) (fun i hi => hPn _ _ (h3 i hi)) with ⟨hs, hsall⟩ | ⟨pre, s, post, hqe, _, hsa, hs⟩
    · rw [hs]
      simp only [ok_bind]
      obtain ⟨h4, h5⟩ := hp.q.wr hcur4 (q := []) (by simp)
      rw [h4]
      simp only [ok_bind]
      have hget : (p.queues.set cur [])[cur]? = some [] := by
        rw [List.getElem?_set_self (by rw [hp.q.1]; exact hcur4)]
      rw [buildQueue_eq h ha cur ⟨p.queues.set cur [], some cur⟩ hget]
      simp only [ok_bind, List.nil_append]
      have hmem : ∀ i ∈ firsts (psetOf c.w ((List.range n).filter (fun i => !isAgg agg i && decide (c.nb i = cur)))),
          i < n ∧ isAgg agg i = false ∧ c.nb i = cur := by
        intro i hi
        rw [mem_firsts_psetOf] at hi
        simp at hi
        exact ⟨hi.1, hi.2.1, hi.2.2⟩
      have hi0m : i0 ∈ firsts (psetOf c.w ((List.range n).filter (fun i => !isAgg agg i && decide (c.nb i = cur)))) := by
        rw [mem_firsts_psetOf]; simp [hi0, hi0a, hi0b]
      generalize hL : firsts (psetOf c.w ((List.range n).filter (fun i => !isAgg agg i && decide (c.nb i = cur)))) = L at *
      have hQ : QAll P ((p.queues.set cur []).set cur L) := h5.set (fun i hi => by
        obtain ⟨h6, h7, h8⟩ := hmem i hi
        have := hPb i h6 h7; rw [h8] at this; exact this)
      have hget2 : ((p.queues.set cur []).set cur L)[cur]? = some L := by
        rw [List.getElem?_set_self (by simp; rw [hp.q.1]; exact hcur4)]
      rw [rd_ok.2 hget2]
      simp only [ok_bind]
      cases L with
      | nil => cases hi0m
      | cons s r =>
        simp only
        obtain ⟨h9, h10⟩ := hQ.wr hcur4 (q := r) (fun i hi => hQ.2 cur _ hget2 i (by simp [hi]))
        rw [h9]
        simp only [ok_bind, Ok_pure]
        obtain ⟨h6, h7, h8⟩ := hmem s (by simp)
        refine ⟨⟨h10, hcur⟩, by simp; simpa using hnone, ?_⟩
        intro s' hs'; cases hs'
        refine ⟨h7, cur, rfl, ?_, hd⟩
        have := hPb s h6 h7; rw [h8] at this; exact this
    · rw [hs]
      simp only [ok_bind]
      obtain ⟨h4, h5⟩ := hp.q.wr hcur4 (q := post) (fun i hi => h3 i (by simp [hqe, hi]))
      rw [h4]
      simp only [ok_bind, Ok_pure]
      refine ⟨⟨h5, hcur⟩, by simp; simpa using hnone, ?_⟩
      intro s' hs'; cases hs'
      exact ⟨hsa, cur, rfl, h3 s (by simp [hqe]), hd⟩

theorem spoilDown_spec {c : PoolCfg W} {n : Nat} (h : c.Sized n) {agg : List Bool} (ha : agg.length = n)
    {P : Nat → Nat → Prop} (hPn : ∀ k i, P k i → i < n) (t : Nat) {p : Pool} (hp : QAll P p.queues)
    (hpt : TopOk c n p.top) (ht : TopOk c n (some t)) :
    Ok (spoilDown agg t p) (fun r => PInv c n P r.2 ∧
      (∀ s, r.1 = some s → isAgg agg s = false ∧ ∃ k, r.2.top = some k ∧ P k s)) := by
  induction t generalizing p with
  | zero =>
    unfold spoilDown
    obtain ⟨q, h1, h2, h3⟩ := hp.rd (k := 0) (by omega)
    rw [h1]
    simp only [ok_bind]
    rcases spoil_spec ha (q := q) (fun i hi => hPn _ _ (h3 i hi)) with ⟨hs, hsall⟩ | ⟨pre, s, post, hqe, _, hsa, hs⟩
    · rw [hs]
      simp only [ok_bind]
      obtain ⟨h4, h5⟩ := hp.wr (k := 0) (by omega) (q := []) (by simp)
      rw [h4]
      exact ⟨⟨h5, hpt⟩, by simp⟩
    · rw [hs]
      simp only [ok_bind]
      obtain ⟨h4, h5⟩ := hp.wr (k := 0) (by omega) (q := post) (fun i hi => h3 i (by simp [hqe, hi]))
      rw [h4]
      refine ⟨⟨h5, ht⟩, ?_⟩
      intro s' hs'; cases hs'
      exact ⟨hsa, 0, rfl, h3 s (by simp [hqe])⟩
  | succ t ih =>
    have ht4 := ht.lt4 h
    unfold spoilDown
    obtain ⟨q, h1, h2, h3⟩ := hp.rd (k := t + 1) ht4
    rw [h1]
    simp only [ok_bind]
    rcases spoil_spec ha (q := q) (fun i hi => hPn _ _ (h3 i hi)) with ⟨hs, hsall⟩ | ⟨pre, s, post, hqe, _, hsa, hs⟩
    · rw [hs]
      simp only [ok_bind]
      obtain ⟨h4, h5⟩ := hp.wr (k := t + 1) ht4 (q := []) (by simp)
      rw [h4]
      simp only [ok_bind]
      refine ih (p := { p with queues := p.queues.set (t + 1) [] }) h5 hpt ?_
      intro t' ht'; cases ht'
      obtain ⟨i, hi, hti⟩ := ht (t + 1) rfl
      exact ⟨i, hi, by omega⟩
    · rw [hs]
      simp only [ok_bind]
      obtain ⟨h4, h5⟩ := hp.wr (k := t + 1) ht4 (q := post) (fun i hi => h3 i (by simp [hqe, hi]))
      rw [h4]
      refine ⟨⟨h5, ht⟩, ?_⟩
      intro s' hs'; cases hs'
      exact ⟨hsa, t + 1, rfl, h3 s (by simp [hqe])⟩

/-- `choose_new_seed`: never fails, finds a free cell whenever there is one -/
theorem choose_spec {c : PoolCfg W} {n : Nat} (h : c.Sized n) {agg : List Bool} (ha : agg.length = n)
    {P : Nat → Nat → Prop} (hPn : ∀ k i, P k i → i < n)
    (hPb : ∀ i < n, isAgg agg i = false → P (c.nb i) i) {p : Pool} (hp : PInv c n P p)
    {t : Nat} (ht : p.top = some t) :
    Ok (p.choose c agg) (fun r => PInv c n P r.2 ∧
      (r.1 = none ↔ ∀ i < n, isAgg agg i = true) ∧
      (∀ s, r.1 = some s → s < n ∧ isAgg agg s = false ∧ ∃ k, r.2.top = some k ∧ P k s ∧
        (c.kind = .boundary → Dominates c n agg t → Dominates c n agg k))) := by
  have htop : TopOk c n (some t) := by have := hp.top; rw [ht] at this; exact this
  have ht4 := htop.lt4 h
  unfold Pool.choose
  rw [ht]
  simp only
  cases hk : c.kind with
  | boundary =>
    simp only
    obtain ⟨q, h1, h2, h3⟩ := hp.q.rd ht4
    rw [h1]
    simp only [ok_bind]
    rcases spoil_spec ha (q := q) (fun i hi => hPn _ _ (h3 i hi)) with ⟨hs, hsall⟩ | ⟨pre, s, post, hqe, _, hsa, hs⟩
    · rw [hs]
      simp only [ok_bind]
      obtain ⟨h4, h5⟩ := hp.q.wr ht4 (q := []) (by simp)
      rw [h4]
      simp only [ok_bind]
      refine (chooseFallback_spec h ha hPn hPb (p := { p with queues := p.queues.set t [] }) ⟨h5, hp.top⟩ t).mono
        (fun r ⟨h6, h7, h8⟩ => ⟨h6, h7, fun s hs => ?_⟩)
      obtain ⟨h9, k, h10, h11, h12⟩ := h8 s hs
      exact ⟨hPn _ _ h11, h9, k, h10, h11, fun _ => h12⟩
    · rw [hs]
      simp only [ok_bind]
      obtain ⟨h4, h5⟩ := hp.q.wr ht4 (q := post) (fun i hi => h3 i (by simp [hqe, hi]))
      rw [h4]
      simp only [ok_bind, Ok_pure]
      have hsP := h3 s (by simp [hqe])
      refine ⟨⟨h5, htop⟩, ?_, ?_⟩
      · refine ⟨fun h => (by cases h), fun h => ?_⟩
        rw [h s (hPn _ _ hsP)] at hsa; cases hsa
      · intro s' hs'; cases hs'
        exact ⟨hPn _ _ hsP, hsa, t, rfl, hsP, fun _ h => h⟩
  | neighbourhood =>
    simp only
    refine (spoilDown_spec h ha hPn t hp.q hp.top htop).bind (fun r ⟨h4, h5⟩ => ?_)
    obtain ⟨o, p'⟩ := r
    cases o with
    | some s =>
      simp only [Ok_pure]
      obtain ⟨h6, k, h7, h8⟩ := h5 s rfl
      refine ⟨h4, ⟨fun h => (by cases h), fun h => ?_⟩, ?_⟩
      · rw [h s (hPn _ _ h8)] at h6; cases h6
      · intro s' hs'; cases hs'
        exact ⟨hPn _ _ h8, h6, k, h7, h8, fun h => (by cases h)⟩
    | none =>
      simp only
      refine (chooseFallback_spec h ha hPn hPb h4 t).mono (fun r ⟨h6, h7, h8⟩ => ⟨h6, h7, fun s hs => ?_⟩)
      obtain ⟨h9, k, h10, h11, h12⟩ := h8 s hs
      exact ⟨hPn _ _ h11, h9, k, h10, h11, fun h => (by cases h)⟩

/-- raising the top queue -/
theorem raiseTop_spec {c : PoolCfg W} {n : Nat} {o : Option Nat} (ho : TopOk c n o) {mx : Nat}
    (hm : TopOk c n (some mx)) :
    TopOk c n (raiseTop o mx) ∧ ∃ t', raiseTop o mx = some t' ∧
      mx ≤ t' ∧ ∀ t, o = some t → t ≤ t' := by
  unfold raiseTop
  cases o with
  | none => exact ⟨hm, mx, rfl, Nat.le_refl _, by simp⟩
  | some t =>
    by_cases h : t < mx
    · simp only [h, if_true]
      exact ⟨hm, mx, rfl, Nat.le_refl _, by intro t' ht'; cases ht'; omega⟩
    · simp only [h, if_false]
      exact ⟨ho, t, rfl, by omega, by intro t' ht'; cases ht'; omega⟩

theorem pushLevel_le (o : Option Nat) (b : Nat) : pushLevel o b ≤ b := by
  cases o with
  | none => exact Nat.le_refl _
  | some t => exact Nat.min_le_left _ _

/-- `update` returns and keeps the invariant -/
theorem update_spec {c : PoolCfg W} {n : Nat} (h : c.Sized n) {P : Nat → Nat → Prop} {p : Pool}
    (hp : PInv c n P p) {seeds : List Nat}
    (hs : ∀ s ∈ seeds, s < n ∧ ∀ k, (c.kind = .boundary → k = c.nb s) → k ≤ c.nb s → P k s) :
    Ok (p.update c seeds) (fun p' => PInv c n P p' ∧
      (∀ t, p.top = some t → ∃ t', p'.top = some t' ∧ t ≤ t')) := by
  unfold Pool.update
  cases hk : c.kind with
  | boundary =>
    simp only
    by_cases he : seeds.isEmpty = true
    · rw [if_pos he]
      exact ⟨hp, fun t ht => ⟨t, ht, Nat.le_refl _⟩⟩
    · rw [if_neg he]
      have hne : seeds ≠ [] := by intro h0; subst h0; simp at he
      refine Ok.bind (Ok.foldlM_prefix (I := fun pre (st : Nat × List (List Nat)) => QAll P st.2 ∧
        (st.1 = 0 ∨ ∃ s ∈ pre, st.1 = c.nb s)) ⟨hp.q, Or.inl rfl⟩ ?_) ?_
      · rintro pre s post ⟨mx, qs⟩ hl ⟨h1, h2⟩
        have hsm : s ∈ seeds := by rw [hl]; simp
        obtain ⟨h3, h4⟩ := hs s hsm
        simp only
        rw [h.rdB h3]
        simp only [ok_bind]
        have hb4 : c.nb s < 4 := by have := h.le3 s h3; omega
        refine (h1.push hb4 (l := [s]) ?_).bind (fun qs' hqs' => ⟨hqs', ?_⟩)
        · intro i hi
          have : i = s := by simpa using hi
          subst this; exact h4 _ (fun _ => rfl) (Nat.le_refl _)
        · simp only
          split
          · exact Or.inr ⟨s, by simp, rfl⟩
          · rcases h2 with h2 | ⟨s', hs', h2⟩
            · exact Or.inl h2
            · exact Or.inr ⟨s', by simp [hs'], h2⟩
      · rintro ⟨mx, qs⟩ ⟨h1, h2⟩
        have hm : TopOk c n (some mx) := by
          intro t ht; cases ht
          rcases h2 with h2 | ⟨s, hs', h2⟩
          · obtain ⟨x, xs, rfl⟩ := List.exists_cons_of_ne_nil hne
            exact ⟨x, (hs x (by simp)).1, by simp only at h2; omega⟩
          · exact ⟨s, (hs s hs').1, by simp only at h2; omega⟩
        obtain ⟨h5, t', h6, h7, h8⟩ := raiseTop_spec hp.top hm
        exact ⟨⟨h1, h5⟩, fun t ht => ⟨t', h6, h8 t ht⟩⟩
  | neighbourhood =>
    simp only
    refine Ok.bind (Ok.foldlM (I := QAll P) hp.q ?_) ?_
    · intro s hsm qs hqs
      obtain ⟨h3, h4⟩ := hs s hsm
      rw [h.rdB h3]
      simp only [ok_bind]
      have hb := h.le3 s h3
      have hlvl := pushLevel_le p.top (c.nb s)
      refine hqs.push (by omega) (fun i hi => ?_)
      have : i = s := by simpa using hi
      subst this; exact h4 _ (by rw [hk]; intro h; cases h) hlvl
    · intro qs hqs
      exact ⟨⟨hqs, hp.top⟩, fun t ht => ⟨t, ht, Nat.le_refl _⟩⟩

/-- new seeds are grouped by number of boundary faces, each group ordered -/
theorem groupSeeds_spec {c : PoolCfg W} {n : Nat} (h : c.Sized n) (hh : Hash) {seeds : NSet}
    (hs : ∀ s ∈ seeds, s < n) :
    Ok (groupSeeds c hh seeds) (fun m => ∀ b, m.find? b =
      let g := (hh.ord 2 seeds.elems).filter (fun s => decide (c.nb s = b))
      if g = [] then none else some (psetOf c.w g)) := by
  unfold groupSeeds
  refine Ok.foldlM_prefix (I := fun pre (m : NMap (List (Nat × W))) => ∀ b, m.find? b =
      let g := pre.filter (fun s => decide (c.nb s = b))
      if g = [] then none else some (psetOf c.w g)) ?_ ?_
  · intro b; simp
  · intro pre s post m hl hI
    have hsn : s < n := hs s (by
      have : s ∈ hh.ord 2 seeds.elems := by rw [hl]; simp
      exact (hh.perm 2 seeds.elems).mem_iff.1 this)
    rw [h.rdB hsn, h.rdW hsn]
    simp only [ok_bind, Ok_pure]
    intro b
    rw [NMap.find?_insert, List.filter_append]
    by_cases hb : b = c.nb s
    · subst hb
      simp only [if_true]
      have : [s].filter (fun s' => decide (c.nb s' = c.nb s)) = [s] := by simp
      rw [this, if_neg (by simp), psetOf_append, hI (c.nb s)]
      simp only
      split
      · rename_i h0; rw [h0]; rfl
      · rfl
    · rw [if_neg hb, hI b]
      have : [s].filter (fun s' => decide (c.nb s' = b)) = [] := by
        simp; exact fun h => hb h.symm
      rw [this]; simp

/-- `order_new_seeds_and_update` returns and keeps the invariant -/
theorem orderUpdate_spec {c : PoolCfg W} {n : Nat} (h : c.Sized n) (hh : Hash) {P : Nat → Nat → Prop} {p : Pool}
    (hp : PInv c n P p) {seeds : NSet}
    (hs : ∀ s ∈ seeds, s < n ∧ ∀ k, (c.kind = .boundary → k = c.nb s) → k ≤ c.nb s → P k s) :
    Ok (p.orderUpdate c hh seeds) (fun p' => PInv c n P p' ∧
      (∀ t, p.top = some t → ∃ t', p'.top = some t' ∧ t ≤ t')) := by
  have hgrp := groupSeeds_spec h hh (seeds := seeds) (fun s hs' => (hs s hs').1)
  have hent : ∀ m : NMap (List (Nat × W)), (∀ b, m.find? b =
      let g := (hh.ord 2 seeds.elems).filter (fun s => decide (c.nb s = b))
      if g = [] then none else some (psetOf c.w g)) →
      ∀ e ∈ m.entries, (∀ s ∈ firsts e.2, s ∈ seeds ∧ c.nb s = e.1) ∧ ∃ s ∈ seeds, c.nb s = e.1 := by
    rintro m hm ⟨b, l⟩ he
    rw [← NMap.find?_eq_some, hm b] at he
    simp only at he
    split at he
    · cases he
    · rename_i hne
      cases he
      have hsub : ∀ s ∈ (hh.ord 2 seeds.elems).filter (fun s => decide (c.nb s = b)), s ∈ seeds ∧ c.nb s = b := by
        intro s hs'
        rw [List.mem_filter] at hs'
        exact ⟨(hh.perm 2 _).mem_iff.1 hs'.1, by simpa using hs'.2⟩
      refine ⟨fun s hs' => hsub s (mem_firsts_psetOf.1 hs'), ?_⟩
      obtain ⟨x, hx⟩ := List.exists_mem_of_ne_nil _ hne
      exact ⟨x, hsub x hx⟩
  unfold Pool.orderUpdate
  cases hk : c.kind with
  | boundary =>
    simp only
    by_cases he : seeds.elems.isEmpty = true
    · rw [if_pos he]
      exact ⟨hp, fun t ht => ⟨t, ht, Nat.le_refl _⟩⟩
    · rw [if_neg he]
      refine hgrp.bind (fun m hm => ?_)
      have hent' := hent m hm
      have hrev : ∀ e ∈ m.entries.reverse, e ∈ m.entries := by simp
      generalize hL : m.entries.reverse = L at hrev
      cases L with
      | nil =>
        exfalso
        have hnil : m.entries = [] := by simpa using hL
        obtain ⟨x, hx⟩ : ∃ x, x ∈ seeds.elems := by
          apply List.exists_mem_of_ne_nil
          intro h0; rw [h0] at he; simp at he
        have := hm (c.nb x)
        have hfn : m.find? (c.nb x) = none := by simp [NMap.find?, hnil]
        rw [hfn] at this
        simp only at this
        split at this
        · rename_i h0
          rw [List.filter_eq_nil_iff] at h0
          exact h0 x ((hh.perm 2 _).mem_iff.2 hx) (by simp)
        · cases this
      | cons e0 rest =>
        obtain ⟨mx, l⟩ := e0
        simp only
        refine Ok.bind (Ok.foldlM (I := QAll P) hp.q ?_) ?_
        · intro e hem qs hqs
          obtain ⟨h1, s0, h2, h3⟩ := hent' e (hrev e hem)
          have := h.le3 s0 (hs s0 h2).1
          refine hqs.push (by omega) (fun i hi => ?_)
          obtain ⟨h4, h5⟩ := h1 i hi
          exact (hs i h4).2 _ (fun _ => h5.symm) (by omega)
        · intro qs hqs
          obtain ⟨_, s0, h2, h3⟩ := hent' (mx, l) (hrev _ (by simp))
          have hm' : TopOk c n (some mx) := by
            intro t ht; cases ht
            exact ⟨s0, (hs s0 h2).1, by simp only at h3; omega⟩
          obtain ⟨h5, t', h6, h7, h8⟩ := raiseTop_spec hp.top hm'
          exact ⟨⟨hqs, h5⟩, fun t ht => ⟨t', h6, h8 t ht⟩⟩
  | neighbourhood =>
    simp only
    refine hgrp.bind (fun m hm => ?_)
    have hent' := hent m hm
    refine Ok.bind (Ok.foldlM (I := QAll P) hp.q ?_) ?_
    · intro e hem qs hqs
      obtain ⟨h1, s0, h2, h3⟩ := hent' e (by simpa using hem)
      have := h.le3 s0 (hs s0 h2).1
      have hlvl := pushLevel_le p.top e.1
      refine hqs.push (by omega) (fun i hi => ?_)
      obtain ⟨h4, h5⟩ := h1 i hi
      exact (hs i h4).2 _ (by rw [hk]; intro h; cases h) (by omega)
    · intro qs hqs
      exact ⟨⟨hqs, hp.top⟩, fun t ht => ⟨t, ht, Nat.le_refl _⟩⟩

/-- `need_initialization` returns and keeps the invariant -/
theorem needInit_spec {c : PoolCfg W} {n : Nat} (h : c.Sized n) {agg : List Bool} (ha : agg.length = n)
    {P : Nat → Nat → Prop} {p : Pool} (hp : PInv c n P p) :
    Ok (p.needInit c agg) (fun r => PInv c n P r.2 ∧ (r.1 = false → r.2 = p ∧ p.top.isSome) ∧
      r.2.queues = p.queues ∧
      (∀ t, p.top = some t → ∃ t', r.2.top = some t' ∧ t ≤ t') ∧
      (p.top = none → r.2.top = none) ∧
      (c.kind = .boundary → r.1 = false → ∀ t, p.top = some t → Dominates c n agg t) ∧
      (c.kind = .boundary → r.1 = true → p.isEmpty = .ok false → ∀ t, r.2.top = some t → Dominates c n agg t)) := by
  unfold Pool.needInit
  obtain ⟨q0, h0, _, _⟩ := hp.q.rd (k := 0) (by omega)
  obtain ⟨q1, h1, _, _⟩ := hp.q.rd (k := 1) (by omega)
  obtain ⟨q2, h2, _, _⟩ := hp.q.rd (k := 2) (by omega)
  obtain ⟨q3, h3, _, _⟩ := hp.q.rd (k := 3) (by omega)
  have hE : p.isEmpty = .ok (q0.isEmpty && q1.isEmpty && q2.isEmpty && q3.isEmpty) := by
    unfold Pool.isEmpty; rw [h0, h1, h2, h3]; rfl
  rw [hE]
  generalize (q0.isEmpty && q1.isEmpty && q2.isEmpty && q3.isEmpty) = e
  simp only [ok_bind]
  have hself : ∀ t, p.top = some t → ∃ t', p.top = some t' ∧ t ≤ t' := fun t ht => ⟨t, ht, Nat.le_refl _⟩
  cases hk : c.kind with
  | boundary =>
    simp only
    cases e with
    | true => exact ⟨hp, by simp, rfl, hself, by simp, by simp, by simp⟩
    | false =>
      simp only [Bool.false_eq_true, if_false]
      cases hpt : p.top with
      | none =>
        refine ⟨hp, by simp, rfl, by simp, by simp [hpt], by simp, ?_⟩
        intro _ _ _ t ht; rw [hpt] at ht; cases ht
      | some t =>
        simp only
        refine (highest_spec h ha 3).bind (fun r ⟨hr1, hr2⟩ => ?_)
        cases r with
        | none =>
          refine ⟨hp, by simp, rfl, by rw [← hpt]; exact hself, by simp, ?_, by simp⟩
          intro _ _ t' ht' i hi hia
          rw [hr1.1 rfl i hi] at hia; cases hia
        | some m =>
          obtain ⟨⟨i0, hi0, hi0a, hi0b⟩, hdom⟩ := hr2 m rfl
          have hd : Dominates c n agg m := by
            rcases hdom with hge | hd
            · intro i hi _; have := h.le3 i hi; omega
            · exact hd
          simp only
          by_cases htm : t < m
          · rw [if_pos htm]
            refine ⟨⟨hp.q, ?_⟩, by simp, rfl, ?_, by simp, by simp, ?_⟩
            · intro t' ht'; cases ht'; exact ⟨i0, hi0, by omega⟩
            · intro t' ht'; cases ht'; exact ⟨m, rfl, by omega⟩
            · intro _ _ _ t' ht'; cases ht'; exact hd
          · rw [if_neg htm]
            refine ⟨hp, by simp, rfl, by rw [← hpt]; exact hself, by simp, ?_, by simp⟩
            intro _ _ t' ht' i hi hia
            cases ht'
            exact Nat.le_trans (hd i hi hia) (by omega)
  | neighbourhood =>
    refine ⟨hp, ?_, rfl, hself, by simp, by simp, by simp⟩
    cases hpt : p.top <;> simp

end CoMMA
