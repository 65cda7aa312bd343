import Verif.Lemmas.TopLevel
/-! # From the final container to the returned vector -/

set_option linter.unusedSectionVars false

namespace CoMMA

variable {W : Type} [Num W]

theorem count_eq_filter (f : List Nat) (k : Nat) :
    f.count k = ((List.range f.length).filter (fun i => decide (f[i]? = some k))).length := by
  induction f using List.reverseRecOn with
  | nil => simp
  | append_singleton l a ih =>
    rw [List.count_append, ih, List.length_append, List.length_singleton, List.range_succ, List.filter_append,
      List.length_append]
    congr 1
    · congr 1
      refine List.filter_congr ?_
      intro i hi
      rw [List.mem_range] at hi
      rw [List.getElem?_append_left hi]
    · simp only [List.filter_singleton, List.getElem?_concat_length]
      by_cases h : a = k
      · simp [h]
      · simp [h]

/-- size of a coarse cell -/
theorem count_eq_card {f : List Nat} {k : Nat} {s : NSet} (h : ∀ i : Nat, i ∈ s ↔ f[i]? = some k) :
    f.count k = s.card := by
  rw [count_eq_filter]
  refine (NSet.card_perm ?_ ?_).symm
  · exact List.Nodup.filter _ List.nodup_range
  · intro i
    rw [h i, List.mem_filter, List.mem_range, decide_eq_true_eq]
    constructor
    · intro hi; exact ⟨(List.getElem?_eq_some_iff.1 hi).1, hi⟩
    · exact fun hi => hi.2

/-- a returned vector and the container it comes from -/
structure Reads (n N : Nat) (k : Cont) (f : List Nat) : Prop where
  len : f.length = n
  get : ∀ (i : Nat) j, f[i]? = some j ↔ k.fc2cc[i]? = some (some j)
  keys : ∀ j, j ∈ k.ccs.keys ↔ j < N
  range : ∀ (i : Nat) j, k.fc2cc[i]? = some (some j) → j < N
  part : ∀ j cc, k.ccs.find? j = some cc → ∀ i : Nat, i ∈ cc.fcs ↔ k.fc2cc[i]? = some (some j)
  card : ∀ j cc, k.ccs.find? j = some cc → cc.card = cc.fcs.card ∧ 0 < cc.card

theorem Reads.mem {n N : Nat} {k : Cont} {f : List Nat} (h : Reads n N k f) {j : Nat} {cc : CC}
    (hc : k.ccs.find? j = some cc) (i : Nat) : i ∈ cc.fcs ↔ f[i]? = some j := by
  rw [h.part j cc hc i, h.get]

theorem Reads.count {n N : Nat} {k : Cont} {f : List Nat} (h : Reads n N k f) {j : Nat} {cc : CC}
    (hc : k.ccs.find? j = some cc) : f.count j = cc.card := by
  rw [count_eq_card (h.mem hc), (h.card j cc hc).1]

theorem Reads.cc {n N : Nat} {k : Cont} {f : List Nat} (h : Reads n N k f) {i j : Nat} (hi : f[i]? = some j) :
    ∃ cc, k.ccs.find? j = some cc := by
  have := h.range i j ((h.get i j).1 hi)
  exact NMap.mem_keys.1 ((h.keys j).2 this)

theorem Reads.mem_iff {n N : Nat} {k : Cont} {f : List Nat} (h : Reads n N k f) (j : Nat) : j ∈ f ↔ j < N := by
  constructor
  · intro hj
    obtain ⟨i, hi⟩ := List.mem_iff_getElem?.1 hj
    exact h.range i j ((h.get i j).1 hi)
  · intro hj
    obtain ⟨cc, hc⟩ := NMap.mem_keys.1 ((h.keys j).2 hj)
    have := h.card j cc hc
    obtain ⟨x, hx⟩ := NSet.card_pos_iff.1 (show 0 < cc.fcs.card by omega)
    exact List.mem_iff_getElem?.2 ⟨x, (h.mem hc x).1 hx⟩

theorem Reads.contiguous {n N : Nat} {k : Cont} {f : List Nat} (h : Reads n N k f) : Contiguous f :=
  ⟨N, h.mem_iff⟩

theorem Reads.connected {n N : Nat} {k : Cont} {f : List Nat} (h : Reads n N k f) {rp ci : List Nat} {j : Nat} {cc : CC}
    (hc : k.ccs.find? j = some cc) (hcon : ConnectedSet rp ci (· ∈ cc.fcs)) :
    ConnectedSet rp ci (fun i => f[i]? = some j) := by
  have : (fun i => f[i]? = some j) = (· ∈ cc.fcs) := by
    funext i; exact propext (h.mem hc i).symm
  rw [this]; exact hcon

theorem reads_plain {n : Nat} {k1 : Cont} (hci : CInv n k1) {f : List Nat} (hl : f.length = n)
    (hg : ∀ (i : Nat) j, f[i]? = some j ↔ k1.fc2cc[i]? = some (some j)) : Reads n k1.counter k1 f :=
  ⟨hl, hg, hci.keys, hci.range, hci.part, hci.card⟩

theorem reads_corrected {n N : Nat} {g : Graph W} {Q : NSet → Nat → Prop} {k1 k2 : Cont} (hc : Corrected g Q k1 k2 N)
    {f : List Nat} (hl : f.length = n) (hg : ∀ (i : Nat) j, f[i]? = some j ↔ k2.fc2cc[i]? = some (some j)) :
    Reads n N k2 f := ⟨hl, hg, hc.keys, hc.range, hc.part, hc.card⟩

/-- the end of a call: container after growth, final container, returned vector -/
structure Outcome (P : Platform) (a : Args W) (o : Outs) (n : Nat) (k0 : Cont) (p0 : Pool) (c : PoolCfg W) (idx lines : List Nat)
    (k1 k2 : Cont) (N : Nat) (f : List Nat) : Prop where
  eq : agglomerateOneLevel P a o = (⟨f, idx, lines⟩, .ok ())
  phase : isoPhase P a c k0 p0 = .ok k2
  inv : IInv (isoEnvOf P a c) k0 k1
  all : k1.nbAgg = n
  cinv : CInv n k1
  reads : Reads n N k2 f
  plain : a.correction = false → k2 = k1 ∧ N = k1.counter
  corr : a.correction = true → Corrected (graphOf a) (Sound (graphOf a)) k1 k2 N

theorem outcome {P : Platform} {a : Args W} {o : Outs} {n : Nat} (hm : ValidMesh a n) (hp : ValidParams P a)
    (hs : CorrectsSingletons a) {c : PoolCfg W} {k : Cont} {p : Pool} {idx lines : List Nat}
    (h : Start P a o c n k p idx lines) : ∃ k1 k2 N f, Outcome P a o n k p c idx lines k1 k2 N f := by
  obtain ⟨k1, p1, hg⟩ := grown_ok hm hp h
  have hci : CInv n k1 := by have := hg.inv.cinv; rwa [show (isoEnvOf P a c).g.nbC = n from graphOf_nbC hm] at this
  cases hcor : a.correction with
  | false =>
    obtain ⟨f, h1, h2, h3, h5⟩ := run_plain hp h hm hg hcor
    exact ⟨k1, k1, _, f, h1, h5, hg.inv, hg.all, hci, reads_plain hci h2 h3, fun _ => ⟨rfl, rfl⟩, by simp [hcor]⟩
  | true =>
    obtain ⟨f, k2, N, h1, h2, h3, h4, h5⟩ := run_corrected hm hp h hg hcor (hs hcor)
    exact ⟨k1, k2, N, f, h1, h5, hg.inv, hg.all, hci, reads_corrected h4 h2 h3, by simp [hcor], fun _ => h4⟩

/-- coarse cells created by the isotropic phase are sound, also after correction -/
theorem Outcome.sound {P : Platform} {a : Args W} {o : Outs} {n : Nat} {k0 : Cont} {p0 : Pool} {c : PoolCfg W} {idx lines : List Nat}
    {k1 k2 : Cont} {N : Nat} {f : List Nat} (h : Outcome P a o n k0 p0 c idx lines k1 k2 N f)
    (h0 : ∀ j cc, k0.ccs.find? j = some cc → cc.iso = false) {j : Nat} {cc : CC} (hc : k2.ccs.find? j = some cc)
    (hi : cc.iso = true) : Sound (graphOf a) cc.fcs cc.compact := by
  cases hcor : a.correction with
  | false =>
    obtain ⟨rfl, _⟩ := h.plain hcor
    by_cases hj : k0.counter ≤ j
    · obtain ⟨_, hg⟩ := h.inv.iso j cc hj hc
      exact ⟨hg.conn, hg.compact⟩
    · rw [h.inv.old j (by omega)] at hc
      rw [h0 j cc hc] at hi; cases hi
  | true => exact (h.corr hcor).good j cc hc hi

/-- every final coarse cell is isotropic if no anisotropic cell was created -/
theorem Outcome.isoOnly {P : Platform} {a : Args W} {o : Outs} {n : Nat} {k0 : Cont} {p0 : Pool} {c : PoolCfg W} {idx lines : List Nat}
    {k1 k2 : Cont} {N : Nat} {f : List Nat} (h : Outcome P a o n k0 p0 c idx lines k1 k2 N f)
    (h0 : k0.counter = 0) {j : Nat} {cc : CC} (hc : k2.ccs.find? j = some cc) : cc.iso = true := by
  cases hcor : a.correction with
  | false =>
    obtain ⟨rfl, _⟩ := h.plain hcor
    exact (h.inv.iso j cc (by omega) hc).1
  | true =>
    have hk := h.corr hcor
    have := (hk.card j cc hc)
    obtain ⟨x, hx⟩ := NSet.card_pos_iff.1 (show 0 < cc.fcs.card by omega)
    have hx' := (hk.part j cc hc x).1 hx
    have hxn : x < n := by
      rw [← h.reads.len]; exact (List.getElem?_eq_some_iff.1 ((h.reads.get x j).2 hx')).1
    obtain ⟨j0, hj0⟩ := h.cinv.complete h.all hxn
    obtain ⟨cc0, hc0⟩ := h.cinv.keys' (h.cinv.range x j0 hj0)
    rw [hk.flag x j cc j0 cc0 hx' hc hj0 hc0]
    exact (h.inv.iso j0 cc0 (by omega) hc0).1

/-- the same call without correction -/
def Args.uncorrected (a : Args W) : Args W := { a with correction := false }

theorem Start.uncorrected {P : Platform} {a : Args W} {o : Outs} {n : Nat} {c : PoolCfg W} {k : Cont} {p : Pool}
    {idx lines : List Nat} (h : Start P a o c n k p idx lines) : Start P a.uncorrected o c n k p idx lines :=
  ⟨h.check, ⟨h.made.eq, h.made.prio, h.made.bnd, h.made.idx, h.made.one⟩, h.eq, h.cinv, h.pool, h.aniso, h.thresh⟩

theorem ValidMesh.uncorrected {a : Args W} {n : Nat} (h : ValidMesh a n) : ValidMesh a.uncorrected n :=
  ⟨h.pos, h.crs, h.sym, h.uniq, h.values, h.volumes, h.centers, h.prio, h.bnd, h.coords⟩

theorem ValidParams.uncorrected {P : Platform} {a : Args W} (h : ValidParams P a) : ValidParams P a.uncorrected :=
  ⟨h.dim, h.minCard, h.goalCard, h.maxCard, h.iter, h.thresh, h.order, h.aspect, h.onePoint⟩

/-- a corrected call and the same call without correction -/
theorem outcome_both {P : Platform} {a : Args W} {o : Outs} {n : Nat} (hm : ValidMesh a n) (hp : ValidParams P a)
    (hcor : a.correction = true) (hs : CorrectsSingletons a) {c : PoolCfg W} {k : Cont} {p : Pool} {idx lines : List Nat}
    (h : Start P a o c n k p idx lines) : ∃ k1 k2 N f f0, Outcome P a o n k p c idx lines k1 k2 N f ∧
      Outcome P a.uncorrected o n k p c idx lines k1 k1 k1.counter f0 := by
  obtain ⟨k1, p1, hg⟩ := grown_ok hm hp h
  have hci : CInv n k1 := by have := hg.inv.cinv; rwa [show (isoEnvOf P a c).g.nbC = n from graphOf_nbC hm] at this
  obtain ⟨f, k2, N, h1, h2, h3, h4, h5⟩ := run_corrected hm hp h hg hcor (hs hcor)
  have hg' : Grown P a.uncorrected o n k c p p1 k1 := ⟨hg.eq, hg.inv, hg.all⟩
  obtain ⟨f0, g1, g2, g3, g5⟩ := run_plain hp.uncorrected h.uncorrected hm.uncorrected hg' rfl
  exact ⟨k1, k2, N, f, f0, ⟨h1, h5, hg.inv, hg.all, hci, reads_corrected h4 h2 h3, by simp [hcor], fun _ => h4⟩,
    ⟨g1, g5, hg'.inv, hg.all, hci, reads_plain hci g2 g3, fun _ => ⟨rfl, rfl⟩, by intro h; cases h⟩⟩

end CoMMA
