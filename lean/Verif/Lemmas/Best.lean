import Verif.Spec.Agglomeration
import Verif.Lemmas.Neighbourhood
import Verif.Lemmas.Search
/-! # Choice of the next cell -/

set_option linter.unusedSectionVars false

namespace CoMMA

variable {W F : Type} [Num W]

theorem rowOf_eq {rowPtr colInd : List Nat} {n : Nat} (h : ValidCRS n rowPtr colInd) {i : Nat} (hi : i < n) :
    rowOf rowPtr colInd i = rowL rowPtr colInd i := by
  obtain ⟨b, e, hb, he, hbe, hec, h5⟩ := h.row hi colInd rfl
  unfold rowL rowOf
  rw [h5, hb, he]

theorem nbShared_pos {row : List Nat} {s : NSet} {y : Nat} (h : y ∈ s) (hr : y ∈ row) : 1 ≤ nbShared row s := by
  unfold nbShared
  rw [Nat.succ_le_iff, List.countP_pos_iff]
  exact ⟨y, h, by simpa using hr⟩

/-- a candidate for a coarse cell -/
structure Cand (g : Graph W) (d : NMap Nat) (cc : NSet) (c : Nat) : Prop where
  lt : c < g.nbC
  nin : c ∉ cc
  ord : ∃ o, d.find? c = some o
  pos : 1 ≤ nbShared (rowOf g.rowPtr g.colInd c) cc

/-- invariant of the choice, after the candidates `pre` -/
structure BInv (g : Graph W) (Inv : NSet → F → Prop) (cc : NSet) (pre : List Nat) (s : BestSt W F) : Prop where
  start : pre = [] → s.ref = 0
  ref : pre ≠ [] → 1 ≤ s.ref
  argF : pre ≠ [] → s.argF = s.arg
  mem : pre ≠ [] → s.arg ∈ pre
  out : pre ≠ [] → s.out = nbShared (rowOf g.rowPtr g.colInd s.arg) cc
  inv : pre ≠ [] → Inv (cc.insert s.arg) s.feats

theorem bestStep_inv {g : Graph W} {Inv : NSet → F → Prop} {cc : NSet} {d : NMap Nat} {pre : List Nat}
    {s : BestSt W F} (h : BInv g Inv cc pre s) (hpre : ∀ c ∈ pre, Cand g d cc c) {c : Nat} (hc : Cand g d cc c)
    {e out : Nat} {ar : W} {f : F} (he : 1 ≤ e) (ho : out = nbShared (rowOf g.rowPtr g.colInd c) cc)
    (hf : Inv (cc.insert c) f) : Ok (bestStep d s c e out ar f) (BInv g Inv cc (pre ++ [c])) := by
  have hne : pre ++ [c] ≠ [] := by simp
  have htake : BInv g Inv cc (pre ++ [c]) (s.take c e out ar f) :=
    ⟨fun h => absurd h hne, fun _ => he, fun _ => rfl, fun _ => by simp [BestSt.take], fun _ => ho, fun _ => hf⟩
  have hkeep : pre ≠ [] → BInv g Inv cc (pre ++ [c]) s := fun hp =>
    ⟨fun h => absurd h hne, fun _ => h.ref hp, fun _ => h.argF hp,
      fun _ => List.mem_append_left _ (h.mem hp), fun _ => h.out hp, fun _ => h.inv hp⟩
  obtain ⟨o, hord⟩ := hc.ord
  unfold bestStep
  rw [NMap.at_eq.2 hord, ok_bind]
  by_cases hp : pre = []
  · have h0 := h.start hp
    rw [if_pos (by omega), if_neg (by omega)]
    exact htake
  · split
    · split
      · have ha := hpre _ (h.mem hp)
        obtain ⟨o', ho'⟩ := ha.ord
        rw [h.argF hp, NMap.at_eq.2 ho', ok_bind]
        split
        · split
          · rw [Ok_pure]
            split
            · exact htake
            · exact hkeep hp
          · exact htake
        · exact hkeep hp
      · exact htake
    · exact hkeep hp

/-- result of the choice -/
def BestOk (g : Graph W) (Inv : NSet → F → Prop) (cc : NSet) (cands : List Nat) (r : Nat × Nat × F) : Prop :=
  cands ≠ [] → r.1 ∈ cands ∧ r.2.1 = nbShared (rowOf g.rowPtr g.colInd r.1) cc ∧ Inv (cc.insert r.1) r.2.2

theorem bicBest_ok {E : IsoEnv W F} {Inv : NSet → F → Prop} (hs : ARSafe E.g E.ar Inv) {cc : NSet} {feats : F}
    (hcc : ∀ x ∈ cc, x < E.g.nbC) (hf : Inv cc feats) {d : NMap Nat} {cands : List Nat} (hne : cands ≠ [])
    (hc : ∀ c ∈ cands, Cand E.g d cc c) :
    Ok (bicBest E cands d feats cc) (BestOk E.g Inv cc cands) := by
  unfold bicBest
  have h0 : 0 < cands.length := List.length_pos_iff.2 hne
  rw [rd_of_lt h0, ok_bind]
  refine Ok.bind (P := BInv E.g Inv cc cands) ?_ ?_
  · refine Ok.foldlM_prefix ⟨fun _ => rfl, ?_, ?_, ?_, ?_, ?_⟩ ?_
    · simp
    · simp
    · simp
    · simp
    · simp
    · intro pre c post s hl hI
      have hcc' := hc c (by simp [hl])
      unfold bicStep
      refine Ok.bind (hs.compute cc feats c hf hcc hcc'.lt hcc'.nin) ?_
      rintro ⟨faces, ar, f⟩ ⟨h1, h2⟩
      simp only at h1 h2 ⊢
      exact bestStep_inv hI (fun c' hc' => hc c' (by simp [hl, hc'])) hcc' (by rw [h1]; exact hcc'.pos) h1 h2
  · intro s hI
    exact fun _ => ⟨hI.mem hne, hI.out hne, hI.inv hne⟩

theorem iterRefine_pos {inner : Nat} {ar : W} {r : Nat × Nat × F} (h : 1 ≤ inner) : 1 ≤ (iterRefine inner ar r).1 := by
  unfold iterRefine
  split
  · show 1 ≤ r.2.1
    omega
  · split <;> exact h

/-- facts about a neighbourhood used by the choice -/
structure NbhOk (E : IsoEnv W F) (al : NSet) (d : NMap Nat) (added : List Nat) (cc : NSet) (nb : Nbh W) : Prop where
  inv : NInv E.g.rowPtr E.g.colInd E.pool.prio E.nbh E.g.dim al added nb
  mem : ∀ x, x ∈ cc ↔ x ∈ added
  lt : ∀ x ∈ cc, x < E.g.nbC
  ord : ∀ x ∈ al, x ∉ added → ∃ o, d.find? x = some o

theorem NbhOk.cand {E : IsoEnv W F} (hE : ValidCRS E.g.nbC E.g.rowPtr E.g.colInd) (hsym : SymmetricCRS E.g.rowPtr E.g.colInd)
    {al : NSet} {d : NMap Nat} {added : List Nat} {cc : NSet}
    {nb : Nbh W} (h : NbhOk E al d added cc nb) {c : Nat} (hc : InFront E.g.rowPtr E.g.colInd al added c) :
    Cand E.g d cc c := by
  obtain ⟨h1, h2, y, hy, hyc⟩ := hc
  have hl := hE.adj_lt hyc
  refine ⟨hl.2, fun hx => h2 ((h.mem c).1 hx), h.ord c h1 h2, nbShared_pos ((h.mem y).2 hy) ?_⟩
  rw [rowOf_eq hE hl.2, hE.mem_rowL hl.2]
  exact hsym _ _ hyc

theorem iterBest_ok {E : IsoEnv W F} (hE : ValidCRS E.g.nbC E.g.rowPtr E.g.colInd)
    (hsym : SymmetricCRS E.g.rowPtr E.g.colInd) (hu : UniqueRows E.g.rowPtr E.g.colInd ∨ LawfulLt W)
    (hw : E.pool.prio.length = E.g.nbC) (hd : 1 ≤ E.g.dim)
    {Inv : NSet → F → Prop} (hs : ARSafe E.g E.ar Inv) {al : NSet} {d : NMap Nat} (k : Nat) {added : List Nat}
    {cc : NSet} {nb : Nbh W} (h : NbhOk E al d added cc nb) {feats : F} (hf : Inv cc feats) :
    Ok (iterBest E d k nb feats cc) (BestOk E.g Inv cc nb.cands) := by
  have hstep : ∀ {added : List Nat} {cc : NSet} {nb : Nbh W}, NbhOk E al d added cc nb → ∀ c ∈ nb.cands,
      Cand E.g d cc c ∧ E.g.neighs c = .ok (rowL E.g.rowPtr E.g.colInd c) ∧
      Ok (nb.update E.pool.prio c (rowL E.g.rowPtr E.g.colInd c)) (NbhOk E al d (added ++ [c]) (cc.insert c)) := by
    intro added cc nb h c hc
    have hcand := h.cand hE hsym (h.inv.sub c hc)
    refine ⟨hcand, neighs_eq hE hcand.lt, ?_⟩
    refine (h.inv.update hE hw hu hd hcand.lt).mono (fun nb' hnb' => ⟨hnb', ?_, ?_, ?_⟩)
    · intro x; rw [NSet.mem_insert, h.mem]; simp; tauto
    · intro x hx
      rcases NSet.mem_insert.1 hx with rfl | hx
      · exact hcand.lt
      · exact h.lt x hx
    · intro x hx hx'
      exact h.ord x hx (fun hh => hx' (by simp [hh]))
  have hstart : ∀ (cc : NSet), BInv E.g Inv cc [] (⟨0, Num.lmax, 0, 0, 0, E.ar.default⟩ : BestSt W F) := by
    intro cc
    refine ⟨fun _ => rfl, ?_, ?_, ?_, ?_, ?_⟩ <;> simp
  induction k generalizing added cc nb feats with
  | zero =>
    unfold iterBest
    refine Ok.bind (P := BInv E.g Inv cc nb.cands) ?_ ?_
    · refine Ok.foldlM_prefix (hstart cc) ?_
      intro pre c post s hl hI
      obtain ⟨hcc, hn, hup⟩ := hstep h c (by simp [hl])
      refine Ok.bind (hs.compute cc feats c hf h.lt hcc.lt hcc.nin) ?_
      rintro ⟨faces, ar, f⟩ ⟨h1, h2⟩
      simp only at h1 h2 ⊢
      rw [hn, ok_bind]
      refine Ok.bind hup ?_
      intro nb' _
      exact bestStep_inv hI (fun c' hc' => (hstep h c' (by simp [hl, hc'])).1) hcc (by rw [h1]; exact hcc.pos) h1 h2
    · intro s hI hne
      exact ⟨hI.mem hne, hI.out hne, hI.inv hne⟩
  | succ k ih =>
    unfold iterBest
    refine Ok.bind (P := BInv E.g Inv cc nb.cands) ?_ ?_
    · refine Ok.foldlM_prefix (hstart cc) ?_
      intro pre c post s hl hI
      obtain ⟨hcc, hn, hup⟩ := hstep h c (by simp [hl])
      refine Ok.bind (hs.compute cc feats c hf h.lt hcc.lt hcc.nin) ?_
      rintro ⟨faces, ar, f⟩ ⟨h1, h2⟩
      simp only at h1 h2 ⊢
      rw [hn, ok_bind]
      refine Ok.bind hup ?_
      intro nb' hnb'
      refine Ok.bind (ih hnb' h2) ?_
      intro r _
      exact bestStep_inv hI (fun c' hc' => (hstep h c' (by simp [hl, hc'])).1) hcc
        (iterRefine_pos (by rw [h1]; exact hcc.pos)) h1 h2
    · intro s hI hne
      exact ⟨hI.mem hne, hI.out hne, hI.inv hne⟩

theorem best_ok {E : IsoEnv W F} (hE : IsoInput E) {Inv : NSet → F → Prop} (hs : ARSafe E.g E.ar Inv)
    {al : NSet} {d : NMap Nat} (k : Nat) {added : List Nat} {cc : NSet} {nb : Nbh W}
    (h : NbhOk E al d added cc nb) {feats : F} (hf : Inv cc feats) (hne : nb.cands ≠ []) :
    Ok (best E k nb d feats cc) (fun r => r.1 ∈ nb.cands ∧
      r.2.1 = nbShared (rowOf E.g.rowPtr E.g.colInd r.1) cc ∧ Inv (cc.insert r.1) r.2.2) := by
  unfold best
  split
  · exact (bicBest_ok hs h.lt hf hne (fun c hc => h.cand hE.crs hE.sym (h.inv.sub c hc))).mono (fun r hr => hr hne)
  · have hd : 1 ≤ E.g.dim := by rcases hE.dim with h | h <;> omega
    exact (iterBest_ok hE.crs hE.sym hE.uniq hE.pool.prio hd hs _ h hf).mono (fun r hr => hr hne)

end CoMMA
