import Verif.Lemmas.Compact
/-! # Growth of a coarse cell: loop invariant and postcondition -/

set_option linter.unusedSectionVars false

namespace CoMMA

variable {W F : Type} [Num W]

/-- a walk leaving a set does so at some step -/
theorem Walk.cross {R : Nat → Nat → Prop} {P : Nat → Prop} {k x y : Nat} (h : Walk R k x y) (hx : P x) (hy : ¬ P y) :
    ∃ j a b, Walk R j x a ∧ P a ∧ ¬ P b ∧ R a b ∧ j + 1 ≤ k := by
  induction h with
  | nil => exact absurd hx hy
  | @step k x y z hw hr ih =>
    by_cases hp : P y
    · exact ⟨k, y, z, hw, hp, hy, hr, Nat.le_refl _⟩
    · obtain ⟨j, a, b, h1, h2, h3, h4, h5⟩ := ih hx hp
      exact ⟨j, a, b, h1, h2, h3, h4, by omega⟩

/-- what is known when the growth starts -/
structure GCtx (E : IsoEnv W F) (agg : List Bool) (seed order : Nat) (d0 : NMap Nat) : Prop where
  len : agg.length = E.g.nbC
  free : agg[seed]? = some false
  d : ∀ x k, d0.find? x = some k ↔
    IsDistance (FreeAdj E.g.rowPtr E.g.colInd agg) (· ∈ NSet.single seed) x k ∧ 0 < k ∧ k < order

theorem GCtx.seed_lt {E : IsoEnv W F} {agg : List Bool} {seed order : Nat} {d0 : NMap Nat}
    (h : GCtx E agg seed order d0) : seed < E.g.nbC := by
  have := (List.getElem?_eq_some_iff.1 h.free).1
  rw [h.len] at this; exact this

theorem GCtx.key {E : IsoEnv W F} (hv : ValidCRS E.g.nbC E.g.rowPtr E.g.colInd) {agg : List Bool} {seed order : Nat}
    {d0 : NMap Nat} (h : GCtx E agg seed order d0) {x : Nat} (hx : x ∈ d0.keys) :
    x < E.g.nbC ∧ agg[x]? = some false ∧ x ≠ seed := by
  obtain ⟨k, hk⟩ := NMap.mem_keys.1 hx
  obtain ⟨hd, h0, _⟩ := (h.d x k).1 hk
  obtain ⟨k, rfl⟩ : ∃ m, k = m + 1 := ⟨k - 1, by omega⟩
  obtain ⟨y, _, hy⟩ := hd.pred
  refine ⟨(hv.adj_lt hy.1).2, hy.2, ?_⟩
  rintro rfl
  have := hd.unique (IsDistance.zero.2 (show x ∈ NSet.single x by simp))
  omega

/-- a coarse cell stored during the growth -/
structure Stored (E : IsoEnv W F) (seed : Nat) (d0 : NMap Nat) (t : NSet) (k : Nat) : Prop where
  mem : seed ∈ t
  sub : ∀ x ∈ t, x = seed ∨ x ∈ d0.keys
  conn : ∀ x ∈ t, ∃ k, Walk (fun a b => Adj E.g.rowPtr E.g.colInd a b ∧ a ∈ t ∧ b ∈ t) k seed x
  card : t.card = k

theorem Stored.connected {E : IsoEnv W F} (hsym : SymmetricCRS E.g.rowPtr E.g.colInd) {seed : Nat} {d0 : NMap Nat}
    {t : NSet} {k : Nat} (h : Stored E seed d0 t k) : ConnectedSet E.g.rowPtr E.g.colInd (· ∈ t) := by
  intro x y hx hy
  obtain ⟨k, hk⟩ := h.conn x hx
  obtain ⟨l, hl⟩ := h.conn y hy
  exact ⟨k + l, (hk.symm (fun a b ⟨h1, h2, h3⟩ => ⟨hsym _ _ h1, h3, h2⟩)).trans hl⟩

/-- loop invariant; `pre` are the cells added before the last one -/
structure GInv (E : IsoEnv W F) (Inv : NSet → F → Prop) (seed : Nat) (d0 : NMap Nat) (pre : List Nat)
    (s : GrowSt W F) : Prop where
  nbh : NInv E.g.rowPtr E.g.colInd E.pool.prio E.nbh E.g.dim d0.keySet pre s.nb
  mem : ∀ x, x ∈ s.tmp ↔ x ∈ pre ++ [s.next]
  st : Stored E seed d0 s.tmp s.size
  d : ∀ x, s.d.find? x = if x ∈ s.tmp then none else d0.find? x
  feats : Inv s.tmp s.feats
  dict : ∀ k, E.minCard ≤ k → k ≤ s.size → ∃ t m, s.dict.find? k = some (t, m) ∧ Stored E seed d0 t k
  small : s.size < E.minCard → s.arg = E.minCard ∧ s.maxCompact = 0
  big : E.minCard ≤ s.size → E.minCard ≤ s.arg ∧ s.arg ≤ s.size
  compact : UniqueRows E.g.rowPtr E.g.colInd → NoSelfLoop E.g.rowPtr E.g.colInd →
    CompactOk E.g.rowPtr E.g.colInd s.tmp s.compact
  best : UniqueRows E.g.rowPtr E.g.colInd → NoSelfLoop E.g.rowPtr E.g.colInd → E.minCard ≤ s.size →
    ∃ t m, s.dict.find? s.arg = some (t, m) ∧ IsCompactness E.g.rowPtr E.g.colInd t s.maxCompact

/-- while cells of the dictionary are left, one of them is next to the coarse cell -/
theorem exists_front {E : IsoEnv W F} {agg : List Bool} {seed order : Nat} {d0 : NMap Nat}
    (h : GCtx E agg seed order d0) {t : NSet} {k : Nat} (hs : Stored E seed d0 t k) (hk : k < d0.size + 1)
    {added : List Nat} (hm : ∀ x, x ∈ t ↔ x ∈ added) :
    ∃ x, InFront E.g.rowPtr E.g.colInd d0.keySet added x := by
  have hex : ∃ x ∈ d0.keys, x ∉ t := by
    by_contra hno
    push Not at hno
    have h1 : d0.keySet.card ≤ t.card := NSet.card_le_of_subset (fun a ha => hno a ha)
    have hseed : seed ∉ d0.keySet := by
      intro hh
      obtain ⟨k, hk⟩ := NMap.mem_keys.1 (NMap.mem_keySet.1 hh)
      obtain ⟨hd, h0, _⟩ := (h.d _ _).1 hk
      have := hd.unique (IsDistance.zero.2 (show seed ∈ NSet.single seed by simp))
      omega
    have h2 := NSet.card_lt_of_ssubset (s := d0.keySet) (t := t) (fun a ha => hno a ha) hs.mem hseed
    rw [NMap.card_keySet, hs.card] at h2
    omega
  obtain ⟨x, hx, hxt⟩ := hex
  obtain ⟨l, hl⟩ := NMap.mem_keys.1 hx
  obtain ⟨⟨⟨w, hw, hwalk⟩, hmin⟩, h0, hlt⟩ := (h.d _ _).1 hl
  have hws : w = seed := by simpa using hw
  subst hws
  obtain ⟨j, a, b, h1, h2, h3, h4, h5⟩ := hwalk.cross (P := (· ∈ t)) hs.mem hxt
  obtain ⟨m, hmd⟩ := ReachableFrom.dist (R := FreeAdj E.g.rowPtr E.g.colInd agg) (S := (· ∈ NSet.single w)) (x := b)
    ⟨j + 1, w, hw, h1.step h4⟩
  have hmj := hmd.2 _ _ hw (h1.step h4)
  have hm0 : 0 < m := by
    rcases Nat.eq_zero_or_pos m with rfl | h
    · have := IsDistance.zero.1 hmd
      have : b = w := by simpa using this
      subst this
      exact absurd hs.mem h3
    · exact h
  refine ⟨b, NMap.mem_keySet.2 (NMap.mem_keys.2 ⟨m, (h.d _ _).2 ⟨hmd, hm0, by omega⟩⟩), ?_, a, (hm a).1 h2, h4.1⟩
  exact fun hb => h3 ((hm b).2 hb)

theorem Stored.insert {E : IsoEnv W F} {seed : Nat} {d0 : NMap Nat} {t : NSet} {k : Nat}
    (h : Stored E seed d0 t k) {x y : Nat} (hx : x ∈ d0.keys) (hxt : x ∉ t) (hy : y ∈ t)
    (ha : Adj E.g.rowPtr E.g.colInd y x) : Stored E seed d0 (t.insert x) (k + 1) := by
  have hmono : ∀ a b, (Adj E.g.rowPtr E.g.colInd a b ∧ a ∈ t ∧ b ∈ t) →
      (Adj E.g.rowPtr E.g.colInd a b ∧ a ∈ t.insert x ∧ b ∈ t.insert x) := by
    rintro a b ⟨h1, h2, h3⟩
    exact ⟨h1, by simp [h2], by simp [h3]⟩
  refine ⟨by simp [h.mem], ?_, ?_, by rw [NSet.card_insert hxt, h.card]⟩
  · intro z hz
    rcases NSet.mem_insert.1 hz with rfl | hz
    · exact Or.inr hx
    · exact h.sub z hz
  · intro z hz
    rcases NSet.mem_insert.1 hz with rfl | hz
    · obtain ⟨l, hl⟩ := h.conn y hy
      exact ⟨l + 1, (hl.mono hmono).step ⟨ha, by simp [hy], by simp⟩⟩
    · obtain ⟨l, hl⟩ := h.conn z hz
      exact ⟨l, hl.mono hmono⟩

theorem nbNeighs_ok {g : Graph W} (hv : ValidCRS g.nbC g.rowPtr g.colInd) {i : Nat} (hi : i < g.nbC) :
    ∃ n, g.nbNeighs i = .ok n ∧ n = (rowL g.rowPtr g.colInd i).length := by
  obtain ⟨b, e, hb, he, hbe, hec, h5⟩ := hv.row hi g.colInd rfl
  refine ⟨e - b, ?_, ?_⟩
  · unfold Graph.nbNeighs
    rw [rd_ok.2 hb, ok_bind, rd_ok.2 he, ok_bind, if_pos hbe]; rfl
  · rw [← rowOf_eq hv hi]
    unfold rowOf
    rw [hb, he]
    simp; omega

/-- one step of the loop, before the erasure from the dictionary -/
theorem growStore_inv {E : IsoEnv W F} (hmin : 1 < E.minCard) {Inv : NSet → F → Prop} {seed : Nat}
    {d0 : NMap Nat} {pre : List Nat} {maxInd : Nat} (hmax : E.minCard ≤ maxInd) {s s' : GrowSt W F}
    (h : GInv E Inv seed d0 pre s)
    (hsize : s'.size = s.size + 1) (hdict : s'.dict = s.dict) (harg : s'.arg = s.arg)
    (hmc : s'.maxCompact = s.maxCompact) (hst : Stored E seed d0 s'.tmp s'.size)
    (hc : UniqueRows E.g.rowPtr E.g.colInd → NoSelfLoop E.g.rowPtr E.g.colInd →
      CompactOk E.g.rowPtr E.g.colInd s'.tmp s'.compact) :
    let s2 := growStore E maxInd (minValue s'.compact) s'
    (∀ k, E.minCard ≤ k → k ≤ s2.size → ∃ t m, s2.dict.find? k = some (t, m) ∧ Stored E seed d0 t k) ∧
    (s2.size < E.minCard → s2.arg = E.minCard ∧ s2.maxCompact = 0) ∧
    (E.minCard ≤ s2.size → E.minCard ≤ s2.arg ∧ s2.arg ≤ s2.size) ∧
    (UniqueRows E.g.rowPtr E.g.colInd → NoSelfLoop E.g.rowPtr E.g.colInd → E.minCard ≤ s2.size →
      ∃ t m, s2.dict.find? s2.arg = some (t, m) ∧ IsCompactness E.g.rowPtr E.g.colInd t s2.maxCompact) ∧
    s2.size = s'.size ∧ s2.tmp = s'.tmp ∧ s2.nb = s'.nb ∧ s2.d = s'.d ∧ s2.next = s'.next ∧ s2.compact = s'.compact := by
  intro s2
  by_cases hcond : E.minCard ≤ s'.size ∨ s'.size = maxInd
  · have hbig : E.minCard ≤ s'.size := by omega
    have hs2 : s2 = { s' with
      maxCompact := (growChoose E.goalCard s'.size (minValue s'.compact) s'.ext s'.maxCompact s'.minExt s'.arg).1
      minExt := (growChoose E.goalCard s'.size (minValue s'.compact) s'.ext s'.maxCompact s'.minExt s'.arg).2.1
      arg := (growChoose E.goalCard s'.size (minValue s'.compact) s'.ext s'.maxCompact s'.minExt s'.arg).2.2
      dict := s'.dict.insert s'.size (s'.tmp, NMap.empty.insert s'.next ((s'.d.find? s'.next).getD 0)) } := by
      show growStore E maxInd (minValue s'.compact) s' = _
      unfold growStore
      rw [if_pos hcond]
    have hfst : (growChoose E.goalCard s'.size (minValue s'.compact) s'.ext s'.maxCompact s'.minExt s'.arg).2.2 = s'.size ∧
        (growChoose E.goalCard s'.size (minValue s'.compact) s'.ext s'.maxCompact s'.minExt s'.arg).1 = minValue s'.compact ∨
        (growChoose E.goalCard s'.size (minValue s'.compact) s'.ext s'.maxCompact s'.minExt s'.arg).2.2 = s'.arg ∧
        (growChoose E.goalCard s'.size (minValue s'.compact) s'.ext s'.maxCompact s'.minExt s'.arg).1 = s'.maxCompact ∧
        minValue s'.compact ≤ s'.maxCompact := by
      unfold growChoose
      split
      · exact Or.inl ⟨rfl, rfl⟩
      · split
        · rename_i h1 h2
          split
          · exact Or.inl ⟨rfl, h2.symm⟩
          · exact Or.inr ⟨rfl, rfl, by omega⟩
        · exact Or.inr ⟨rfl, rfl, by omega⟩
    have hd : ∀ k, E.minCard ≤ k → k ≤ s2.size → ∃ t m, s2.dict.find? k = some (t, m) ∧ Stored E seed d0 t k := by
      intro k hk1 hk2
      rw [hs2] at hk2 ⊢
      simp only at hk2 ⊢
      rw [NMap.find?_insert]
      by_cases hk : k = s'.size
      · rw [if_pos hk]; exact ⟨_, _, rfl, hk ▸ hst⟩
      · rw [if_neg hk, hdict]
        exact h.dict k hk1 (by omega)
    refine ⟨hd, ?_, ?_, ?_, by rw [hs2], by rw [hs2], by rw [hs2], by rw [hs2], by rw [hs2], by rw [hs2]⟩
    · intro hh; rw [hs2] at hh; simp only at hh; omega
    · intro _
      rw [hs2]; simp only
      rcases hfst with ⟨h1, _⟩ | ⟨h1, _⟩
      · rw [h1]; omega
      · rw [h1, harg]
        by_cases hsm : s.size < E.minCard
        · rw [(h.small hsm).1]; omega
        · have := h.big (by omega); omega
    · intro hu hl _
      have hcomp := (hc hu hl).min (by rw [hst.card]; omega)
      rw [hs2]; simp only
      rcases hfst with ⟨h1, h2⟩ | ⟨h1, h2, h3⟩
      · rw [h1, h2, NMap.find?_insert, if_pos rfl]
        exact ⟨_, _, rfl, hcomp⟩
      · rw [h1, h2, NMap.find?_insert, harg, hmc, hdict]
        by_cases hsm : s.size < E.minCard
        · have := h.small hsm
          rw [if_pos (by omega)]
          refine ⟨_, _, rfl, ?_⟩
          rw [show s.maxCompact = minValue s'.compact by omega]
          exact hcomp
        · have := h.big (by omega)
          rw [if_neg (by omega)]
          exact h.best hu hl (by omega)
  · have hs2 : s2 = s' := by
      show growStore E maxInd (minValue s'.compact) s' = _
      unfold growStore
      rw [if_neg hcond]
    rw [hs2]
    refine ⟨?_, ?_, ?_, ?_, rfl, rfl, rfl, rfl, rfl, rfl⟩
    · intro k h1 h2; omega
    · intro _; rw [harg, hmc]; exact h.small (by omega)
    · intro hh; omega
    · intro _ _ hh; omega

theorem growStep_end {E : IsoEnv W F} (hmin : 1 < E.minCard) {Inv : NSet → F → Prop} {seed : Nat}
    {d0 : NMap Nat} {pre : List Nat} {maxInd : Nat} (hmax : E.minCard ≤ maxInd) {s s' : GrowSt W F} {feats : F}
    {next : Nat} (h : GInv E Inv seed d0 pre s)
    (hsize : s'.size = s.size + 1) (hdict : s'.dict = s.dict) (harg : s'.arg = s.arg)
    (hmc : s'.maxCompact = s.maxCompact)
    (hnb : NInv E.g.rowPtr E.g.colInd E.pool.prio E.nbh E.g.dim d0.keySet (pre ++ [s.next]) s'.nb)
    (hnext : s'.next = next) (htmp : s'.tmp = s.tmp.insert next) (hd : s'.d = s.d)
    {compact : NMap Nat} (hcm : s'.compact = compact)
    (hst : Stored E seed d0 (s.tmp.insert next) (s.size + 1)) (hnin : next ∉ s.tmp)
    (hf : Inv (s.tmp.insert next) feats)
    (hc : UniqueRows E.g.rowPtr E.g.colInd → NoSelfLoop E.g.rowPtr E.g.colInd →
      CompactOk E.g.rowPtr E.g.colInd (s.tmp.insert next) compact) :
    GInv E Inv seed d0 (pre ++ [s.next]) { growStore E maxInd (minValue compact) s' with
      feats := feats, d := (growStore E maxInd (minValue compact) s').d.erase next } ∧
    (growStore E maxInd (minValue compact) s').size = s.size + 1 := by
  subst hcm
  have key := growStore_inv hmin hmax h hsize hdict harg hmc (by rw [htmp, hsize]; exact hst) (by rw [htmp]; exact hc)
  generalize growStore E maxInd (minValue s'.compact) s' = s2 at key ⊢
  simp only at key
  obtain ⟨k1, k2, k3, k4, k5, k6, k7, k8, k9, k10⟩ := key
  refine ⟨⟨?_, ?_, ?_, ?_, ?_, k1, k2, k3, ?_, k4⟩, by rw [k5, hsize]⟩
  · simp only; rw [k7]; exact hnb
  · intro x
    simp only
    rw [k6, k9, htmp, hnext, NSet.mem_insert, h.mem]
    simp only [List.mem_append, List.mem_singleton]
    exact or_comm
  · simp only; rw [k6, k5, htmp, hsize]; exact hst
  · intro x
    simp only
    rw [k8, k6, NMap.find?_erase, hd, htmp, h.d]
    by_cases hx : x = next
    · subst hx; simp
    · simp [hx]
  · simp only; rw [k6, htmp]; exact hf
  · intro hu hl
    simp only; rw [k6, k10, htmp]; exact hc hu hl

theorem growStep_inv {E : IsoEnv W F} (hE : IsoInput E) {Inv : NSet → F → Prop} (hs : ARSafe E.g E.ar Inv)
    {agg : List Bool} {seed order : Nat} {d0 : NMap Nat} (hc : GCtx E agg seed order d0) {maxInd : Nat}
    (hmax : E.minCard ≤ maxInd) (hmd : maxInd ≤ d0.size + 1) {pre : List Nat} {s : GrowSt W F}
    (h : GInv E Inv seed d0 pre s) (hlt : s.size < maxInd) :
    Ok (growStep E maxInd s) (fun s' => GInv E Inv seed d0 (pre ++ [s.next]) s' ∧ s'.size = s.size + 1) := by
  have hd1 : 1 ≤ E.g.dim := by rcases hE.dim with h | h <;> omega
  have htmp : ∀ x ∈ s.tmp, x < E.g.nbC := by
    intro x hx
    rcases h.st.sub x hx with rfl | hx
    · exact hc.seed_lt
    · exact (hc.key hE.crs hx).1
  have hnext : s.next < E.g.nbC := htmp _ ((h.mem _).2 (by simp))
  unfold growStep
  rw [neighs_eq hE.crs hnext, ok_bind]
  refine Ok.bind (h.nbh.update hE.crs hE.pool.prio hE.uniq hd1 hnext) ?_
  intro nb hnb
  have hok : NbhOk E d0.keySet s.d (pre ++ [s.next]) s.tmp nb := by
    refine ⟨hnb, h.mem, htmp, ?_⟩
    intro x hx hxa
    obtain ⟨o, ho⟩ := NMap.mem_keys.1 (NMap.mem_keySet.1 hx)
    exact ⟨o, by rw [h.d, if_neg (fun hh => hxa ((h.mem x).1 hh)), ho]⟩
  have hne : nb.cands ≠ [] := hnb.ne (exists_front hc h.st (by omega) h.mem)
  refine Ok.bind (best_ok hE hs _ hok h.feats hne) ?_
  rintro ⟨next, faces, feats⟩ ⟨hr1, hr2, hr3⟩
  simp only at hr1 hr2 hr3 ⊢
  obtain ⟨hf1, hf2, y, hy, hya⟩ := hnb.sub _ hr1
  have hcand := hok.cand hE.crs hE.sym ⟨hf1, hf2, y, hy, hya⟩
  obtain ⟨nn, hnn, _⟩ := nbNeighs_ok hE.crs hcand.lt
  rw [hnn, ok_bind, rd_of_lt (show next < E.g.nBnd.length by rw [hE.bnd]; exact hcand.lt), ok_bind,
    neighs_eq hE.crs hcand.lt, ok_bind, Ok_pure]
  have hst : Stored E seed d0 (s.tmp.insert next) (s.size + 1) :=
    h.st.insert (NMap.mem_keySet.1 hf1) hcand.nin ((h.mem y).2 hy) hya
  have hcomp : UniqueRows E.g.rowPtr E.g.colInd → NoSelfLoop E.g.rowPtr E.g.colInd →
      CompactOk E.g.rowPtr E.g.colInd (s.tmp.insert next)
        (growCompact (s.tmp.insert next) next (rowL E.g.rowPtr E.g.colInd next) s.compact) :=
    fun hu hl => growCompact_ok hE.crs hE.sym hu hl (h.compact hu hl) htmp hcand.lt hcand.nin
  exact growStep_end (s' := { s with
      nb := nb, size := s.size + 1, tmp := s.tmp.insert next
      compact := growCompact (s.tmp.insert next) next (rowL E.g.rowPtr E.g.colInd next) s.compact
      next := next
      ext := s.ext + ((nn : Int) + E.g.nBnd[next]'(by rw [hE.bnd]; exact hcand.lt) - 1 - 2 * faces) })
    hE.minCard hmax h rfl rfl rfl rfl hnb rfl rfl rfl rfl hst hcand.nin hr3 hcomp

theorem growLoop_inv {E : IsoEnv W F} (hE : IsoInput E) {Inv : NSet → F → Prop} (hs : ARSafe E.g E.ar Inv)
    {agg : List Bool} {seed order : Nat} {d0 : NMap Nat} (hc : GCtx E agg seed order d0) {maxInd : Nat}
    (hmax : E.minCard ≤ maxInd) (hmd : maxInd ≤ d0.size + 1) (fuel : Nat) {pre : List Nat} {s : GrowSt W F}
    (h : GInv E Inv seed d0 pre s) (hle : s.size ≤ maxInd) (hf : maxInd ≤ fuel + s.size) :
    Ok (growLoop E maxInd fuel s) (fun s' => ∃ pre', GInv E Inv seed d0 pre' s' ∧ s'.size = maxInd) := by
  induction fuel generalizing pre s with
  | zero =>
    unfold growLoop
    rw [if_neg (by omega)]
    exact ⟨pre, h, by omega⟩
  | succ fuel ih =>
    unfold growLoop
    split
    · rename_i hlt
      refine Ok.bind (growStep_inv hE hs hc hmax hmd h hlt) ?_
      rintro s' ⟨h1, h2⟩
      exact ih h1 (by omega) (by omega)
    · exact ⟨pre, h, by omega⟩

theorem growInit_inv {E : IsoEnv W F} (hE : IsoInput E) {Inv : NSet → F → Prop} (hs : ARSafe E.g E.ar Inv)
    {agg : List Bool} {seed order : Nat} {d0 : NMap Nat} (hc : GCtx E agg seed order d0) :
    Ok (growInit E seed d0) (fun s => GInv E Inv seed d0 [] s ∧ s.size = 1) := by
  have hsl := hc.seed_lt
  unfold growInit
  refine Ok.bind (hs.init seed hsl) ?_
  intro feats hfeats
  obtain ⟨nn, hnn, _⟩ := nbNeighs_ok hE.crs hsl
  rw [hnn, ok_bind, rd_of_lt (show seed < E.g.nBnd.length by rw [hE.bnd]; exact hsl), ok_bind, Ok_pure]
  have hmin := hE.minCard
  refine ⟨⟨NInv_new _ _ _ _ _ _, ?_, ⟨?_, ?_, ?_, ?_⟩, ?_, hfeats, ?_, ?_, ?_, ?_, ?_⟩, rfl⟩
  · intro x; simp
  · simp
  · intro x hx; left; simpa using hx
  · intro x hx
    have : x = seed := by simpa using hx
    subst this
    exact ⟨0, .nil _⟩
  · rfl
  · intro x
    simp only [NSet.mem_single]
    split
    · rename_i hx; subst hx
      rw [NMap.find?_eq_none]
      intro hk
      exact (hc.key hE.crs hk).2.2 rfl
    · rfl
  · intro k h1 h2; simp only at h2; omega
  · intro _; exact ⟨rfl, rfl⟩
  · intro hh; simp only at hh; omega
  · intro hu hl x k
    simp only [NMap.find?_insert, NMap.find?_empty, NSet.mem_single]
    split
    · rename_i hx; subst hx
      have hnl : x ∉ rowOf E.g.rowPtr E.g.colInd x := by
        rw [rowOf_eq hE.crs hsl, hE.crs.mem_rowL hsl]; exact hl x
      rw [nbShared_single, if_neg hnl]
      simp [eq_comm]
    · rename_i hx; simp [hx]
  · intro _ _ hh; simp only at hh; omega

theorem neighbourhoodOf_ok {g : Graph W} (hv : ValidCRS g.nbC g.rowPtr g.colInd) (h : Hash) {cc : NSet}
    (hcc : ∀ x ∈ cc, x < g.nbC) {agg : List Bool} (ha : agg.length = g.nbC) :
    Ok (g.neighbourhoodOf h cc agg) (fun s => ∀ x, x ∈ s ↔
      x ∉ cc ∧ agg[x]? = some false ∧ ∃ y ∈ cc, Adj g.rowPtr g.colInd y x) := by
  unfold Graph.neighbourhoodOf
  refine Ok.mono (Ok.foldlM_prefix (I := fun pre (s : NSet) => ∀ x, x ∈ s ↔
      x ∉ cc ∧ agg[x]? = some false ∧ ∃ y ∈ pre, Adj g.rowPtr g.colInd y x) (by simp) ?_) ?_
  · intro pre i post s hl hI
    have hi : i < g.nbC := hcc i ((h.perm 1 cc.elems).mem_iff.1 (by rw [hl]; simp))
    rw [neighs_eq hv hi, ok_bind]
    refine Ok.mono (Ok.foldlM_prefix (I := fun pre' (s' : NSet) => ∀ x, x ∈ s' ↔
      x ∈ s ∨ (x ∉ cc ∧ agg[x]? = some false ∧ x ∈ pre')) (by simp) ?_) ?_
    · intro pre' n post' s' hl' hI'
      have hn : n < g.nbC := hv.rowL_lt hi (by rw [hl']; simp)
      obtain ⟨a, ha1, ha2⟩ := rdBool ha hn
      rw [ha1, ok_bind, Ok_pure]
      intro x
      cases a with
      | true =>
        simp only [Bool.not_true, Bool.false_and, Bool.false_eq_true, if_false]
        rw [hI']
        simp only [List.mem_append, List.mem_singleton]
        constructor
        · tauto
        · rintro (h | ⟨h1, h2, h3 | rfl⟩)
          · exact Or.inl h
          · exact Or.inr ⟨h1, h2, h3⟩
          · rw [ha2] at h2; simp at h2
      | false =>
        by_cases hnc : n ∈ cc
        · have : cc.has n = true := NSet.has_iff.2 hnc
          simp only [this, Bool.not_true, Bool.and_false, Bool.false_eq_true, if_false]
          rw [hI']
          simp only [List.mem_append, List.mem_singleton]
          constructor
          · tauto
          · rintro (h | ⟨h1, h2, h3 | rfl⟩)
            · exact Or.inl h
            · exact Or.inr ⟨h1, h2, h3⟩
            · exact absurd hnc h1
        · have : cc.has n = false := NSet.has_false_iff.2 hnc
          simp only [this, Bool.not_false, Bool.and_self, if_true]
          rw [NSet.mem_insert, hI']
          simp only [List.mem_append, List.mem_singleton]
          constructor
          · rintro (rfl | h | h)
            · exact Or.inr ⟨hnc, ha2, Or.inr rfl⟩
            · exact Or.inl h
            · exact Or.inr ⟨h.1, h.2.1, Or.inl h.2.2⟩
          · rintro (h | ⟨h1, h2, h3 | rfl⟩)
            · exact Or.inr (Or.inl h)
            · exact Or.inr (Or.inr ⟨h1, h2, h3⟩)
            · exact Or.inl rfl
    · intro s' hs' x
      rw [hs', hI]
      simp only [List.mem_append, List.mem_singleton, hv.mem_rowL hi]
      constructor
      · rintro (⟨h1, h2, y, h3, h4⟩ | ⟨h1, h2, h3⟩)
        · exact ⟨h1, h2, y, Or.inl h3, h4⟩
        · exact ⟨h1, h2, i, Or.inr rfl, h3⟩
      · rintro ⟨h1, h2, y, h3 | rfl, h4⟩
        · exact Or.inl ⟨h1, h2, y, h3, h4⟩
        · exact Or.inr ⟨h1, h2, h4⟩
  · intro s hs x
    rw [hs]
    constructor
    · rintro ⟨h1, h2, y, h3, h4⟩
      exact ⟨h1, h2, y, (h.perm 1 cc.elems).mem_iff.1 h3, h4⟩
    · rintro ⟨h1, h2, y, h3, h4⟩
      exact ⟨h1, h2, y, (h.perm 1 cc.elems).mem_iff.2 h3, h4⟩

theorem groupByOrder_mem (d : NMap Nat) (s : NSet) :
    (∀ o t, (groupByOrder d s).1.find? o = some t → ∀ x ∈ t, x ∈ s) ∧ ∀ x ∈ (groupByOrder d s).2, x ∈ s := by
  unfold groupByOrder
  suffices H : ∀ (l : List Nat) (m : NMap NSet) (nf : NSet), (∀ x ∈ l, x ∈ s) →
      ((∀ o t, m.find? o = some t → ∀ x ∈ t, x ∈ s) ∧ ∀ x ∈ nf, x ∈ s) →
      let r := l.foldl (fun (p : NMap NSet × NSet) x =>
        match d.find? x with
        | some o => (p.1.insert o (((p.1.find? o).getD NSet.empty).insert x), p.2)
        | none => (p.1, p.2.insert x)) (m, nf)
      (∀ o t, r.1.find? o = some t → ∀ x ∈ t, x ∈ s) ∧ ∀ x ∈ r.2, x ∈ s from
    H s.elems NMap.empty NSet.empty (fun x hx => hx) (by simp)
  intro l
  induction l with
  | nil => intro m nf _ h; exact h
  | cons a l ih =>
    intro m nf hl h
    rw [List.foldl_cons]
    have ha := hl a (by simp)
    split
    · rename_i o ho
      refine ih _ _ (fun x hx => hl x (by simp [hx])) ⟨?_, h.2⟩
      intro o' t ht x hx
      simp only at ht
      rw [NMap.find?_insert] at ht
      split at ht
      · cases ht
        rcases NSet.mem_insert.1 hx with rfl | hx
        · exact ha
        · cases hm : m.find? o with
          | none => rw [hm] at hx; simp at hx
          | some t' => rw [hm] at hx; exact h.1 o t' hm x hx
      · exact h.1 o' t ht x hx
    · refine ih _ _ (fun x hx => hl x (by simp [hx])) ⟨h.1, ?_⟩
      intro x hx
      rcases NSet.mem_insert.1 hx with rfl | hx
      · exact ha
      · exact h.2 x hx

/-- a property of pools kept by additions of cells -/
def PoolStable (E : IsoEnv W F) (PI : Pool → Prop) : Prop :=
  ∀ p (seeds : NSet), PI p → (∀ s ∈ seeds, s < E.g.nbC) → Ok (p.orderUpdate E.pool E.h seeds) PI

theorem pushNeighs_ok {E : IsoEnv W F} {PI : Pool → Prop} (hst : PoolStable E PI) {d : NMap Nat} {s : NSet}
    (hs : ∀ x ∈ s, x < E.g.nbC) {p : Pool} (hp : PI p) : Ok (pushNeighs E (groupByOrder d s) p) PI := by
  obtain ⟨h1, h2⟩ := groupByOrder_mem d s
  unfold pushNeighs
  refine Ok.bind (P := PI) (Ok.foldlM hp ?_) ?_
  · rintro ⟨o, t⟩ he p hp
    simp only
    split
    · exact hp
    · exact hst p t hp (fun x hx => hs x (h1 o t (NMap.find?_eq_some.2 he) x hx))
  · intro p hp
    split
    · exact hp
    · exact hst p _ hp (fun x hx => hs x (h2 x hx))

/-- a coarse cell proposed for creation, with its compactness -/
structure Proposed (E : IsoEnv W F) (agg : List Bool) (seed : Nat) (s : NSet) (k : Nat) : Prop where
  mem : seed ∈ s
  free : ∀ x ∈ s, agg[x]? = some false
  conn : ConnectedSet E.g.rowPtr E.g.colInd (· ∈ s)
  card : s.card ≤ E.maxCard
  small : s.card < E.minCard → ∀ x ∈ s, ∀ y, Adj E.g.rowPtr E.g.colInd x y → y ∈ s ∨ agg[y]? = some true
  compact : UniqueRows E.g.rowPtr E.g.colInd → NoSelfLoop E.g.rowPtr E.g.colInd →
    IsCompactness E.g.rowPtr E.g.colInd s k

theorem grow_ok {E : IsoEnv W F} (hE : IsoInput E) {agg : List Bool} {seed order : Nat} {d0 : NMap Nat}
    (hc : GCtx E agg seed order d0) (hg : E.goalCard ≤ d0.size + 1) {PI : Pool → Prop} (hst : PoolStable E PI)
    {p : Pool} (hp : PI p) :
    Ok (grow E agg p seed d0) (fun r => Proposed E agg seed r.1 r.2.1 ∧ PI r.2.2) := by
  obtain ⟨Inv, hs⟩ := hE.ar
  have hmin := hE.minCard
  have hgc := hE.goalCard
  have hmc := hE.maxCard
  unfold grow
  simp only
  refine Ok.bind (growInit_inv hE hs hc) ?_
  rintro s0 ⟨h0, h01⟩
  refine Ok.bind (growLoop_inv hE hs hc (by omega) (Nat.min_le_right _ _) _ h0 (by omega) (by omega)) ?_
  rintro s ⟨pre, h, hsz⟩
  have hb := h.big (by omega)
  obtain ⟨t, m, hf, hsto⟩ := h.dict s.arg hb.1 hb.2
  have hcc : ((s.dict.find? s.arg).getD (NSet.empty, NMap.empty)).1 = t := by rw [hf]; rfl
  rw [hcc]
  have hfree : ∀ x ∈ t, x < E.g.nbC ∧ agg[x]? = some false := by
    intro x hx
    rcases hsto.sub x hx with rfl | hx
    · exact ⟨hc.seed_lt, hc.free⟩
    · exact ⟨(hc.key hE.crs hx).1, (hc.key hE.crs hx).2.1⟩
  refine Ok.bind (neighbourhoodOf_ok hE.crs E.h (fun x hx => (hfree x hx).1) hc.len) ?_
  intro nset hn
  refine Ok.bind (pushNeighs_ok hst (fun x hx => ?_) hp) ?_
  · obtain ⟨_, _, y, _, hy⟩ := (hn x).1 hx
    exact (hE.crs.adj_lt hy).2
  · intro p' hp'
    rw [hsto.card]
    refine Ok.bind (P := fun _ => True) (Ok_assertM (by simp) trivial) ?_
    intro _ _
    refine ⟨⟨hsto.mem, fun x hx => (hfree x hx).2, hsto.connected hE.sym, ?_, ?_, ?_⟩, hp'⟩
    · simp only; rw [hsto.card]; omega
    · simp only; rw [hsto.card]; omega
    · intro hu hl
      obtain ⟨t', m', hf', hcomp⟩ := h.best hu hl (by omega)
      rw [hf] at hf'
      cases hf'
      exact hcomp

theorem chooseOptimal_ok {E : IsoEnv W F} (hE : IsoInput E) {agg : List Bool} (ha : agg.length = E.g.nbC)
    {seed : Nat} (hseed : agg[seed]? = some false) {PI : Pool → Prop} (hst : PoolStable E PI)
    {p : Pool} (hp : PI p) :
    Ok (chooseOptimal E agg p seed) (fun r => Proposed E agg seed r.1 r.2.1 ∧ PI r.2.2) := by
  have hmin := hE.minCard
  have hgc := hE.goalCard
  have hmc := hE.maxCard
  have hsl : seed < E.g.nbC := by
    have := (List.getElem?_eq_some_iff.1 hseed).1; omega
  unfold chooseOptimal
  refine Ok.bind (P := fun _ => True) (Ok_assertM (by simp; omega) trivial) ?_
  intro _ _
  refine Ok.bind (neighbourhood_spec hE.crs E.h ha (seeds := NSet.single seed)
    (fun x hx => by have : x = seed := by simpa using hx
                    omega) (by simp) _ (by omega)) ?_
  rintro ⟨order, d⟩ ⟨h1, h2, _⟩
  simp only at h1 h2 ⊢
  have hc : GCtx E agg seed order d := ⟨ha, hseed, h1⟩
  -- small neighbourhood: the whole component of free cells
  have hall : d.size + 1 < E.maxCard → ∀ x ∈ (NSet.single seed).insertMany d.keys, ∀ y,
      Adj E.g.rowPtr E.g.colInd x y → y ∈ (NSet.single seed).insertMany d.keys ∨ agg[y]? = some true := by
    intro hsm x hx y hxy
    have hex : ∀ x k, IsDistance (FreeAdj E.g.rowPtr E.g.colInd agg) (· ∈ NSet.single seed) x k → k < order := by
      rcases h2 with h2 | ⟨_, h2⟩
      · exact h2
      · rw [NSet.card_single] at h2; omega
    have hy := (hE.crs.adj_lt hxy).2
    obtain ⟨a, _, ha2⟩ := rdBool ha hy
    cases a with
    | true => exact Or.inr ha2
    | false =>
      left
      have hxd : ∃ k, IsDistance (FreeAdj E.g.rowPtr E.g.colInd agg) (· ∈ NSet.single seed) x k := by
        simp only [NSet.mem_insertMany, NSet.mem_single] at hx
        rcases hx with hx | hx
        · obtain ⟨k, hk⟩ := NMap.mem_keys.1 (by simpa using hx)
          exact ⟨k, ((h1 x k).1 hk).1⟩
        · exact ⟨0, IsDistance.zero.2 (by simp [hx])⟩
      obtain ⟨k, hk⟩ := hxd
      obtain ⟨l, hl, _⟩ := hk.succ_le (show FreeAdj E.g.rowPtr E.g.colInd agg x y from ⟨hxy, ha2⟩)
      simp only [NSet.mem_insertMany, NSet.mem_single]
      rcases Nat.eq_zero_or_pos l with rfl | hl0
      · have := IsDistance.zero.1 hl
        exact Or.inr (by simpa using this)
      · exact Or.inl (NMap.mem_keys.2 ⟨l, (h1 y l).2 ⟨hl, hl0, hex y l hl⟩⟩)
  split
  · rename_i h0
    have hk : d.keys = [] := by
      apply List.eq_nil_of_length_eq_zero
      rw [← NMap.size_eq_keys]; exact h0
    rw [hk] at hall
    refine ⟨⟨by simp, ?_, ?_, by simp; omega, ?_, ?_⟩, hp⟩
    · intro x hx
      have : x = seed := by simpa using hx
      rw [this]; exact hseed
    · intro x y hx hy
      have h3 : x = seed := by simpa using hx
      have h4 : y = seed := by simpa using hy
      rw [h3, h4]; exact ⟨0, .nil _⟩
    · intro _ x hx y hxy
      exact hall (by omega) x hx y hxy
    · intro _ _
      exact ⟨fun _ => rfl, fun h => by simp at h⟩
  · split
    · rename_i h0 hlt
      have hsub : ∀ x ∈ (NSet.single seed).insertMany d.keys, x < E.g.nbC ∧ agg[x]? = some false := by
        intro x hx
        simp only [NSet.mem_insertMany, NSet.mem_single] at hx
        rcases hx with hx | rfl
        · exact ⟨(hc.key hE.crs hx).1, (hc.key hE.crs hx).2.1⟩
        · exact ⟨hsl, hseed⟩
      have hcard : ((NSet.single seed).insertMany d.keys).card = d.size + 1 := by
        rw [NSet.card_perm (l := seed :: d.keys) (List.nodup_cons.2 ⟨fun hk => (hc.key hE.crs hk).2.2 rfl, d.keys_nodup⟩)
          (fun a => by simp only [NSet.mem_insertMany, NSet.mem_single, List.mem_cons]; tauto)]
        rw [NMap.size_eq_keys]; simp
      refine Ok.bind (minCompactness_ok hE.crs (fun x hx => (hsub x hx).1)) ?_
      intro k hk
      refine ⟨⟨by simp, fun x hx => (hsub x hx).2, ?_, ?_, fun _ => hall (by omega), fun hu _ => hk hu⟩, hp⟩
      · -- every cell is linked to the seed by a shortest walk, all of whose cells are in the set
        have hw : ∀ k x, IsDistance (FreeAdj E.g.rowPtr E.g.colInd agg) (· ∈ NSet.single seed) x k →
            x ∈ (NSet.single seed).insertMany d.keys →
            Walk (fun a b => Adj E.g.rowPtr E.g.colInd a b ∧ a ∈ (NSet.single seed).insertMany d.keys ∧
              b ∈ (NSet.single seed).insertMany d.keys) k seed x := by
          intro k
          induction k with
          | zero =>
            intro x hx _
            have := IsDistance.zero.1 hx
            have : x = seed := by simpa using this
            subst this; exact .nil _
          | succ k ih =>
            intro x hx hxm
            obtain ⟨y, hy, hyx⟩ := hx.pred
            have hxd : k + 1 < order := by
              simp only [NSet.mem_insertMany, NSet.mem_single] at hxm
              rcases hxm with hxm | rfl
              · obtain ⟨l, hl⟩ := NMap.mem_keys.1 hxm
                obtain ⟨h3, _, h4⟩ := (h1 x l).1 hl
                rw [hx.unique h3]; exact h4
              · have := hx.unique (IsDistance.zero.2 (show x ∈ NSet.single x by simp))
                omega
            have hym : y ∈ (NSet.single seed).insertMany d.keys := by
              simp only [NSet.mem_insertMany, NSet.mem_single]
              rcases Nat.eq_zero_or_pos k with rfl | hk0
              · have := IsDistance.zero.1 hy
                exact Or.inr (by simpa using this)
              · exact Or.inl (NMap.mem_keys.2 ⟨k, (h1 y k).2 ⟨hy, hk0, by omega⟩⟩)
            exact (ih y hy hym).step ⟨hyx.1, hym, hxm⟩
        have hw' : ∀ x ∈ (NSet.single seed).insertMany d.keys, ∃ k,
            Walk (fun a b => Adj E.g.rowPtr E.g.colInd a b ∧ a ∈ (NSet.single seed).insertMany d.keys ∧
              b ∈ (NSet.single seed).insertMany d.keys) k seed x := by
          intro x hx
          have hx' := hx
          simp only [NSet.mem_insertMany, NSet.mem_single] at hx'
          rcases hx' with hx' | rfl
          · obtain ⟨l, hl⟩ := NMap.mem_keys.1 hx'
            exact ⟨l, hw l x ((h1 x l).1 hl).1 hx⟩
          · exact ⟨0, .nil _⟩
        intro x y hx hy
        obtain ⟨a, ha'⟩ := hw' x hx
        obtain ⟨b, hb'⟩ := hw' y hy
        exact ⟨a + b, (ha'.symm (fun u v ⟨h3, h4, h5⟩ => ⟨hE.sym _ _ h3, h5, h4⟩)).trans hb'⟩
      · simp only; rw [hcard]; omega
    · exact grow_ok hE hc (by omega) hst hp

end CoMMA
