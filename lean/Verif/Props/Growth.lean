import Verif.Lemmas.IsoTrace
import Verif.Props.Agglomeration
import Verif.Props.Neighbourhood
/-! # C38, C41, C42: how coarse cells are made -/

set_option linter.unusedSectionVars false

namespace CoMMA

variable {W F : Type} [Num W]

/-- **C38** When the cells `added` are in the coarse cell and some cell can be added, the
cell chosen next is the first best candidate: most faces in common with the coarse cell,
then closest to the seed, then smallest aspect ratio.  With several iterations (`k` more
cells to add, at most `fc_choice_iter` looked ahead), candidates are improved by the best
cell to be added after them. -/
theorem C38_best_candidate {E : IsoEnv W F} (hE : IsoInput E) (hW : LawfulLt W) {Inv : NSet → F → Prop}
    (hs : ARSafe E.g E.ar Inv) {allowed : NSet} {d : NMap Nat} {added : List Nat} (hlt : ∀ x ∈ added, x < E.g.nbC)
    (hd : ∀ x ∈ allowed, x ∉ added → ∃ o, d.find? x = some o)
    {f : F} (hf : Inv (NSet.ofList added) f) (hex : ∃ x, InFront E.g.rowPtr E.g.colInd allowed added x) (k : Nat) :
    ∃ nb c n f' m, nbhAfter E.g E.nbh E.pool.prio allowed added = .ok nb ∧
      Candidates E.g E.nbh E.pool.prio allowed added nb.cands ∧
      best E (min k E.fcIter) nb d f (NSet.ofList added) = .ok (c, n, f') ∧
      InFront E.g.rowPtr E.g.colInd allowed added c ∧
      FirstBest (LookAhead E allowed d (min k E.fcIter - 1) added f) nb.cands c m f' := by
  have hdim : 1 ≤ E.g.dim := by rcases hE.dim with h | h <;> omega
  have hw : E.pool.prio.length = E.g.nbC := by rw [hE.pool.prio]
  obtain ⟨nb, h1, hat⟩ := (nbAt hW hE allowed hlt).eq
  have h2 := hat.inv
  have hok : NbhOk E allowed d added (NSet.ofList added) nb :=
    ⟨h2, fun x => NSet.mem_ofList, fun x hx => hlt x (NSet.mem_ofList.1 hx), hd⟩
  obtain ⟨⟨c, n, f'⟩, h3, m, h4⟩ := (best_first hW hE hs k hok (fun _ _ => rfl) hf (h2.ne hex)).eq
  exact ⟨nb, c, n, f', m, h1, hat.cands, h3, h2.sub c h4.mem.1,
    h4.imp (fun x hx m f hl => look_cands hW hE _ hat hx hl)⟩

theorem callEnv {P : Platform} {a : Args W} (hp : ValidParams P a)
    {c : PoolCfg W} (hc : PoolMade P a c) : CallEnv P a (isoEnvOf P a c) := by
  have h1 := hp.minCard
  have h2 := hp.goalCard
  have h3 := hp.maxCard
  have h4 := hp.iter
  have hb : clampBnd a.dim.toNat a.nBnd = a.nBnd.map (fun b => min b a.dim.toNat) := by
    unfold clampBnd
    apply List.map_congr_left
    intro b _
    split <;> omega
  have hdim : ((graphOf a).dim : Int) = a.dim := by
    show ((a.dim.toNat : Nat) : Int) = a.dim
    rcases hp.dim with h | h <;> rw [h] <;> rfl
  have hmin : (isoEnvOf P a c).minCard = a.minCard.toNat := cardOr_pos (by omega)
  have hgoal : (isoEnvOf P a c).goalCard = a.goalCard.toNat := cardOr_pos (by omega)
  have hmax : (isoEnvOf P a c).maxCard = a.maxCard.toNat := cardOr_pos (by omega)
  refine ⟨rfl, rfl, rfl, rfl, rfl, rfl, hdim, hb, by rw [hmin]; omega, by rw [hgoal]; omega, by rw [hmax]; omega,
    ?_, rfl, rfl, rfl, ?_, ?_, hc.prio, ?_, fun i => NSet.mem_ofList, hc.idx, rfl⟩
  · show ((a.fcIter.toNat : Nat) : Int) = a.fcIter
    omega
  · show c.kind = .boundary ↔ _
    have := hc.eq
    unfold poolOf at this
    cases ho : a.order <;> rw [ho] at this <;> cases this <;> simp
  · show c.onePoint = true ↔ _
    have := hc.eq
    unfold poolOf at this
    cases ho : a.order <;> rw [ho] at this <;> cases this <;> simp
  · exact hc.bnd

theorem run_trace {P : Platform} {a : Args W} {o : Outs} {n : Nat} (hm : ValidMesh a n) (hp : ValidParams P a)
    (hW : LawfulLt W) (hu : UniqueRows a.rowPtr a.colInd) (hl : NoSelfLoop a.rowPtr a.colInd)
    (hcor : a.correction = false) (hoff : WithoutLines a o) :
    ∃ c p0 cs agg p, PoolMade P a c ∧ Pool.new.initialize c = .ok p0 ∧
      IsoTrace (isoEnvOf P a c) (GrownGreedily (isoEnvOf P a c)) (List.replicate n false) p0 cs agg p ∧ agg = List.replicate n true ∧
      ∀ i k : Nat, (agglomerateOneLevel P a o).1.fcToCc[i]? = some k ↔ ∃ c, cs[k]? = some c ∧ i ∈ c.2 := by
  obtain ⟨c, k, p, h, rfl⟩ := start_iso hm hp hoff
  have hn : (isoEnvOf P a c).g.nbC = n := graphOf_nbC hm
  obtain ⟨k1, p1, hg⟩ := grown_ok hm hp h
  have hci : CInv n k1 := by have := hg.inv.cinv; rwa [hn] at this
  obtain ⟨f, g1, g2, g3, _⟩ := run_plain hp h hm hg hcor
  obtain ⟨cs, ht⟩ := isoRun_trace (isoInput hm hp h.made) hW hu hl (by rw [hn]; exact h.cinv)
    (by rw [hn]; exact h.pool) hg.eq
  have hpi : Pool.new.initialize c = .ok p := by
    have := h.eq
    unfold anisoPhase at this
    rw [withoutLines_iff.1 hoff, graphOf_nbC hm] at this
    simp only [Bool.false_eq_true, if_false] at this
    obtain ⟨p', h1, h2⟩ := bind_ok_iff.1 this
    cases h2; exact h1
  refine ⟨c, p, cs, k1.agg, p1, h.made, hpi, ht.trace, ?_, ?_⟩
  · rw [List.eq_replicate_iff]
    have hc : k1.agg.count true = k1.agg.length := by rw [← hci.nbAgg, hci.lenA, hg.all]
    rw [List.count_eq_length] at hc
    exact ⟨hci.lenA, fun b hb => (hc b hb).symm⟩
  · intro i j
    rw [g1]
    simp only
    rw [g3]
    have := ht.get i j
    rw [show (Cont.new n (effThresh a).toNat).counter + j = j from Nat.zero_add j] at this
    exact this

/-- **C42** An isotropic call without correction, on a mesh without repeated neighbours and
self-loops, is a sequence of turns: the pool is initialised; each turn takes the seed given
by the pool, makes its coarse cell (see `GreedyCell`) and queues its free neighbours; the
sequence ends when all cells are taken.  Coarse cells are numbered in the order of the
turns. -/
theorem C42_run {P : Platform} {a : Args W} {o : Outs} {n : Nat} (hm : ValidMesh a n) (hp : ValidParams P a)
    (hW : LawfulLt W) (hu : UniqueRows a.rowPtr a.colInd) (hl : NoSelfLoop a.rowPtr a.colInd)
    (hcor : a.correction = false) (hoff : WithoutLines a o) :
    ∃ E p0 cs agg p, CallEnv P a E ∧ PoolStarted E.pool p0 ∧
      IsoTrace E (GrownGreedily E) (List.replicate n false) p0 cs agg p ∧ agg = List.replicate n true ∧
      ∀ i k : Nat, (agglomerateOneLevel P a o).1.fcToCc[i]? = some k ↔ ∃ c, cs[k]? = some c ∧ i ∈ c.2 := by
  obtain ⟨c, p0, cs, agg, p, hc, h0, h⟩ := run_trace hm hp hW hu hl hcor hoff
  have hE := isoInput hm hp hc
  exact ⟨isoEnvOf P a c, p0, cs, agg, p, callEnv hp hc, poolStarted hW hE.pool hE.prio h0, h⟩

theorem cell_greedy {P : Platform} {a : Args W} {o : Outs} {n : Nat} (hm : ValidMesh a n) (hp : ValidParams P a)
    (hW : LawfulLt W) (hu : UniqueRows a.rowPtr a.colInd) (hl : NoSelfLoop a.rowPtr a.colInd)
    (hcor : a.correction = false) (hoff : WithoutLines a o) {k : Nat} (hk : k ∈ (agglomerateOneLevel P a o).1.fcToCc) :
    ∃ c agg seed order s, PoolMade P a c ∧
      (∀ i : Nat, i < n → ∃ j, (agglomerateOneLevel P a o).1.fcToCc[i]? = some j ∧ agg[i]? = some (decide (j < k))) ∧
      GreedyCell (isoEnvOf P a c) agg seed order s ∧
      ∀ i : Nat, (agglomerateOneLevel P a o).1.fcToCc[i]? = some k ↔ i ∈ s := by
  obtain ⟨c, p0, cs, aggF, p, hE, _, ht, hF, hget⟩ := run_trace hm hp hW hu hl hcor hoff
  obtain ⟨i0, hi0⟩ := List.mem_iff_getElem?.1 hk
  obtain ⟨e, he, _⟩ := (hget i0 k).1 hi0
  obtain ⟨agg, p', order, h1, h2⟩ := ht.at he
  refine ⟨c, agg, e.1, order, e.2, hE, ?_, h2, ?_⟩
  · intro i hi
    have hin : ∃ e ∈ cs, i ∈ e.2 := by
      by_contra hno
      have h3 := (ht.taken i).2 hno
      rw [hF, List.getElem?_replicate, List.getElem?_replicate, if_pos hi, if_pos hi] at h3
      cases h3
    obtain ⟨e', he', hie'⟩ := hin
    obtain ⟨j, hj⟩ := List.mem_iff_getElem?.1 he'
    have hij := (hget i j).2 ⟨e', hj, hie'⟩
    refine ⟨j, hij, ?_⟩
    by_cases hjk : j < k
    · rw [(h1.taken i).1 ⟨e', List.mem_iff_getElem?.2 ⟨j, by rw [List.getElem?_take, if_pos hjk]; exact hj⟩, hie'⟩]
      simp [hjk]
    · rw [(h1.taken i).2, List.getElem?_replicate, if_pos hi]
      · simp [hjk]
      · rintro ⟨e2, he2, hie2⟩
        obtain ⟨j2, hj2⟩ := List.mem_iff_getElem?.1 he2
        rw [List.getElem?_take] at hj2
        split at hj2
        · have := (hget i j2).2 ⟨e2, hj2, hie2⟩
          rw [hij] at this; cases this; omega
        · cases hj2
  · intro i
    rw [hget]
    constructor
    · rintro ⟨e', he', hi⟩; rw [he] at he'; cases he'; exact hi
    · exact fun hi => ⟨e, he, hi⟩

/-- **C41** (without the claim on external faces, see `C41_counterexample`) Each coarse cell of
an isotropic call without correction is grown greedily from its seed and cut at the size
between `min_card` and `max_card` with the largest compactness; among these the number of
external faces minus the number of cells is smallest.  If fewer than `goal_card` free cells
can be reached from the seed, all of them are taken. -/
theorem C41_greedy_partial {P : Platform} {a : Args W} {o : Outs} {n : Nat} (hm : ValidMesh a n) (hp : ValidParams P a)
    (hW : LawfulLt W) (hu : UniqueRows a.rowPtr a.colInd) (hl : NoSelfLoop a.rowPtr a.colInd)
    (hcor : a.correction = false) (hoff : WithoutLines a o) {k : Nat} (hk : k ∈ (agglomerateOneLevel P a o).1.fcToCc) :
    ∃ E agg seed order s, CallEnv P a E ∧
      (∀ i : Nat, i < n → ∃ j, (agglomerateOneLevel P a o).1.fcToCc[i]? = some j ∧ agg[i]? = some (decide (j < k))) ∧
      GreedyCell E agg seed order s ∧
      ∀ i : Nat, (agglomerateOneLevel P a o).1.fcToCc[i]? = some k ↔ i ∈ s := by
  obtain ⟨c, agg, seed, order, s, hc, h⟩ := cell_greedy hm hp hW hu hl hcor hoff hk
  exact ⟨isoEnvOf P a c, agg, seed, order, s, callEnv hp hc, h⟩

/-! ## Counterexample and concrete cases -/

/-- three cells in a row, `min_card` 2, `goal_card` and `max_card` 3 -/
def exRow : Args Int := { exArgs3 with goalCard := 3, maxCard := 3, correction := false }

theorem exRow_crs : ValidCRS 3 exRow.rowPtr exRow.colInd := checkCRS_sound (by decide)
theorem exRow_uniq : UniqueRows exRow.rowPtr exRow.colInd := checkUniq_sound exRow_crs (by decide)
theorem exRow_loop : NoSelfLoop exRow.rowPtr exRow.colInd := checkNoLoop_sound exRow_crs (by decide)

theorem exRow_valid : ValidMesh exRow 3 where
  pos := by decide
  crs := exRow_crs
  sym := checkSym_sound exRow_crs (by decide)
  uniq := Or.inl exRow_uniq
  values := rfl
  volumes := rfl
  centers := rfl
  prio := rfl
  bnd := rfl
  coords := ⟨2, by decide⟩

theorem exRow_params : ValidParams exPlatform exRow where
  dim := by decide
  minCard := by decide
  goalCard := by decide
  maxCard := by decide
  iter := by decide
  thresh := by decide
  order := by decide
  aspect := by decide
  onePoint := by decide

/-- The coarse cell does not always have the fewest external faces among the sizes with the
largest compactness: here the three cells are put together although the first two have the
same compactness and fewer external faces. -/
theorem C41_counterexample :
    (agglomerateOneLevel exPlatform exRow ⟨[], [], []⟩).1.fcToCc = [0, 0, 0] ∧
    IsCompactness exRow.rowPtr exRow.colInd (NSet.ofList [0, 1]) 1 ∧
    IsCompactness exRow.rowPtr exRow.colInd (NSet.ofList [0, 1, 2]) 1 ∧
    externalFaces (graphOf exRow) (NSet.ofList [0, 1]) < externalFaces (graphOf exRow) (NSet.ofList [0, 1, 2]) := by
  refine ⟨by decide +kernel, ⟨by decide, fun _ => ⟨⟨0, by decide, by decide⟩, ?_⟩⟩,
    ⟨by decide, fun _ => ⟨⟨0, by decide, by decide⟩, ?_⟩⟩, by decide⟩
  · intro x hx
    have : x ∈ [0, 1] := by simpa using NSet.mem_ofList.1 hx
    revert x
    decide
  · intro x hx
    have : x ∈ [0, 1, 2] := by simpa using NSet.mem_ofList.1 hx
    revert x
    decide

/-- the hypotheses of C38, for the cell 0 of the row -/
example : ∃ (E : IsoEnv Int (Feats Int)) (Inv : NSet → Feats Int → Prop) (f : Feats Int),
    IsoInput E ∧ ARSafe E.g E.ar Inv ∧ (∀ x ∈ [0], x < E.g.nbC) ∧
    (∀ x ∈ NSet.ofList [1, 2], x ∉ [0] → ∃ o, ((NMap.empty.insert 1 1).insert 2 2).find? x = some o) ∧
    Inv (NSet.ofList [0]) f ∧ InFront E.g.rowPtr E.g.colInd (NSet.ofList [1, 2]) [0] 1 := by
  obtain ⟨c, hc⟩ := poolOf_ok exPlatform (a := exRow) (by decide)
  have hE := isoInput exRow_valid exRow_params hc
  obtain ⟨Inv, hs⟩ := hE.ar
  obtain ⟨f, _, hf⟩ := (hs.init 0 (show 0 < 3 by decide)).eq
  refine ⟨_, Inv, f, hE, hs, ?_, ?_, hf, by decide, by decide, 0, by simp,
    adj_iff_rowOf.2 (show 1 ∈ rowOf exRow.rowPtr exRow.colInd 0 by decide)⟩
  · show ∀ x ∈ [0], x < 3
    decide
  · intro x hx _
    have : x ∈ [1, 2] := NSet.mem_ofList.1 hx
    simp only [List.mem_cons, List.not_mem_nil, or_false] at this
    rcases this with rfl | rfl
    · exact ⟨1, by decide⟩
    · exact ⟨2, by decide⟩

example := C42_run (o := ⟨[], [], []⟩) exRow_valid exRow_params exLawful exRow_uniq exRow_loop rfl (Or.inl rfl)
example := C41_greedy_partial (o := ⟨[], [], []⟩) exRow_valid exRow_params exLawful exRow_uniq exRow_loop rfl (Or.inl rfl)
  (k := 0) (by rw [C41_counterexample.1]; decide)

end CoMMA
