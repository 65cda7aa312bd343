import Verif.Lemmas.Growth
import Verif.Lemmas.Container
import Verif.Props.Pool
/-! # The isotropic loop -/

set_option linter.unusedSectionVars false

namespace CoMMA

variable {W F : Type} [Num W]

/-- properties of the isotropic coarse cell with index `k` -/
structure GoodCC (E : IsoEnv W F) (c : Cont) (k : Nat) (cc : CC) : Prop where
  conn : ConnectedSet E.g.rowPtr E.g.colInd (· ∈ cc.fcs)
  le : cc.card ≤ E.maxCard
  small : cc.card < E.minCard → ∀ x ∈ cc.fcs, ∀ y, Adj E.g.rowPtr E.g.colInd x y →
    y ∈ cc.fcs ∨ ∃ k', k' < k ∧ c.fc2cc[y]? = some (some k')
  compact : UniqueRows E.g.rowPtr E.g.colInd → NoSelfLoop E.g.rowPtr E.g.colInd →
    IsCompactness E.g.rowPtr E.g.colInd cc.fcs cc.compact

/-- loop invariant; the first `m` cells are anisotropic, those of the container `c0` -/
structure IInv (E : IsoEnv W F) (c0 : Cont) (c : Cont) : Prop where
  cinv : CInv E.g.nbC c
  le : c0.counter ≤ c.counter
  old : ∀ k, k < c0.counter → c.ccs.find? k = c0.ccs.find? k
  iso : ∀ k cc, c0.counter ≤ k → c.ccs.find? k = some cc → cc.iso = true ∧ GoodCC E c k cc
  thresh : c.thresh = c0.thresh

theorem IInv_refl {E : IsoEnv W F} {c : Cont} (h : CInv E.g.nbC c) : IInv E c c := by
  refine ⟨h, Nat.le_refl _, fun _ _ => rfl, ?_, rfl⟩
  intro k cc hk hf
  have := (h.keys k).1 (NMap.mem_keys.2 ⟨cc, hf⟩)
  omega

theorem IInv.create {E : IsoEnv W F} {c0 c c' : Cont} (h : IInv E c0 c) (hci : CInv E.g.nbC c') {s : NSet}
    {k seed : Nat} (hp : Proposed E c.agg seed s k) (hc : Created c s k false c') : IInv E c0 c' := by
  have hle := h.le
  refine ⟨hci, by rw [hc.counter]; omega, ?_, ?_, by rw [hc.thresh, h.thresh]⟩
  · intro j hj
    rw [hc.ccs, NMap.find?_insert, if_neg (by omega)]
    exact h.old j hj
  · intro j cc hj hf
    rw [hc.ccs, NMap.find?_insert] at hf
    split at hf
    · rename_i hjc
      cases hf
      refine ⟨rfl, hp.conn, hp.card, ?_, hp.compact⟩
      intro hsm x hx y hxy
      rcases hp.small hsm x hx y hxy with hy | hy
      · exact Or.inl hy
      · obtain ⟨k', hk'⟩ := (h.cinv.agg y).1 hy
        refine Or.inr ⟨k', by rw [hjc]; exact h.cinv.range _ _ hk', ?_⟩
        rw [hc.fc2cc, if_neg, hk']
        intro hys
        have := hp.free y hys
        rw [hy] at this; simp at this
    · obtain ⟨hiso, hg⟩ := h.iso j cc hj hf
      refine ⟨hiso, hg.conn, hg.le, ?_, hg.compact⟩
      intro hsm x hx y hxy
      rcases hg.small hsm x hx y hxy with hy | ⟨k', hk', hy⟩
      · exact Or.inl hy
      · refine Or.inr ⟨k', hk', ?_⟩
        rw [hc.fc2cc, if_neg, hy]
        intro hys
        have := h.cinv.free (hp.free y hys)
        rw [hy] at this; simp at this

theorem poolStable {E : IsoEnv W F} (hE : IsoInput E) (agg : List Bool) :
    PoolStable E (fun p => PoolRun E.pool E.g.nbC p agg true) := by
  intro p seeds hp hs
  obtain ⟨p', hp'⟩ := (C06_no_failure hE.pool hE.prio hp).2.2.1 E.h seeds hs
  exact Ok.of_eq hp' (.orderUpdate hp hs hp')

theorem isoStep_inv {E : IsoEnv W F} (hE : IsoInput E) {c0 c : Cont} (h : IInv E c0 c) {p : Pool}
    (hp : PoolRun E.pool E.g.nbC p c.agg true) (hlt : c.nbAgg < E.g.nbC) :
    Ok (isoStep E c p) (fun r => IInv E c0 r.1 ∧ PoolRun E.pool E.g.nbC r.2 r.1.agg true ∧ c.nbAgg < r.1.nbAgg) := by
  obtain ⟨o, p', hch, hnone, hsome⟩ := C06_choose_new_seed hE.pool hE.prio hp
  have hne : o ≠ none := by
    intro ho
    have hall := hnone.1 ho
    have : c.agg.count true = c.agg.length := by
      rw [List.count_eq_length]
      intro b hb
      obtain ⟨i, hi, hib⟩ := List.mem_iff_getElem.1 hb
      have := hall i (by rw [← h.cinv.lenA]; exact hi)
      rw [List.getElem?_eq_getElem hi, hib] at this
      simpa using this.symm
    rw [h.cinv.nbAgg, this, h.cinv.lenA] at hlt
    omega
  obtain ⟨seed, rfl⟩ := Option.ne_none_iff_exists'.1 hne
  have hseed := hsome seed rfl
  unfold isoStep
  rw [hch, ok_bind]
  simp only [Option.isSome_some]
  refine Ok.bind (P := fun _ => True) (Ok_assertM rfl trivial) ?_
  intro _ _
  refine Ok.bind (P := fun s => s = seed) (Ok_valueM rfl rfl) ?_
  rintro _ rfl
  refine Ok.bind (chooseOptimal_ok hE h.cinv.lenA hseed (poolStable hE c.agg) (hp.choose hch)) ?_
  rintro ⟨s, k, p2⟩ ⟨hprop, hp2⟩
  simp only at hprop hp2 ⊢
  have hpos : 0 < s.card := NSet.card_pos_iff.2 ⟨_, hprop.mem⟩
  refine Ok.bind (create_spec h.cinv hpos hprop.free k false) ?_
  rintro ⟨id, c'⟩ ⟨_, hci, hcr⟩
  rw [Ok_pure]
  refine ⟨h.create hci hprop hcr, hp2.mark (by rw [hci.lenA, h.cinv.lenA]) ?_, ?_⟩
  · intro i hi
    simp only
    rw [hcr.agg]
    split
    · rfl
    · exact hi
  · simp only; rw [hcr.nbAgg]; omega

theorem isoLoop_inv {E : IsoEnv W F} (hE : IsoInput E) {c0 : Cont} (fuel : Nat) {c : Cont} (h : IInv E c0 c) {p : Pool}
    (hp : PoolRun E.pool E.g.nbC p c.agg true) (hf : E.g.nbC ≤ fuel + c.nbAgg) :
    Ok (isoLoop E fuel c p) (fun r => IInv E c0 r.1 ∧ r.1.nbAgg = E.g.nbC) := by
  have hle : ∀ {c : Cont}, IInv E c0 c → c.nbAgg ≤ E.g.nbC := by
    intro c h
    rw [h.cinv.nbAgg, ← h.cinv.lenA]; exact List.count_le_length
  induction fuel generalizing c p with
  | zero =>
    unfold isoLoop
    rw [if_neg (by omega)]
    have := hle h
    exact ⟨h, by simp only; omega⟩
  | succ fuel ih =>
    unfold isoLoop
    split
    · rename_i hlt
      refine Ok.bind (isoStep_inv hE h hp hlt) ?_
      rintro r ⟨h1, h2, h3⟩
      exact ih h1 h2 (by omega)
    · have := hle h
      exact ⟨h, by simp only; omega⟩

theorem isoRun_inv {E : IsoEnv W F} (hE : IsoInput E) {c : Cont} (h : CInv E.g.nbC c) {p : Pool}
    (hp : PoolRun E.pool E.g.nbC p c.agg true) :
    Ok (isoRun E c p) (fun r => IInv E c r.1 ∧ r.1.nbAgg = E.g.nbC) := by
  unfold isoRun
  refine Ok.bind (isoLoop_inv hE E.g.nbC (IInv_refl h) hp (by omega)) ?_
  rintro ⟨c', p'⟩ ⟨h1, h2⟩
  unfold Cont.createDelayed
  simp only at h1 h2 ⊢
  rw [h1.cinv.delayed]
  simp only [List.foldlM_nil, pure_bind]
  show IInv E c { c' with delayed := [] } ∧ _
  have : ({ c' with delayed := [] } : Cont) = c' := by rw [← h1.cinv.delayed]
  rw [this]
  exact ⟨h1, h2⟩

/-- when every cell is agglomerated, every entry of the map is set -/
theorem CInv.complete {n : Nat} {c : Cont} (h : CInv n c) (hn : c.nbAgg = n) {i : Nat} (hi : i < n) :
    ∃ k, c.fc2cc[i]? = some (some k) := by
  rw [← h.agg]
  have hc : c.agg.count true = c.agg.length := by rw [← h.nbAgg, h.lenA, hn]
  rw [List.count_eq_length] at hc
  have hil : i < c.agg.length := by rw [h.lenA]; exact hi
  rw [List.getElem?_eq_getElem hil, ← hc _ (List.getElem_mem hil)]

end CoMMA
