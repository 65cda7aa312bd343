import Verif.Spec.Threshold
import Verif.Lemmas.Threshold
import Verif.Props.Correction
/-! # C12: correction with a threshold above one -/

set_option linter.unusedSectionVars false

namespace CoMMA

variable {W : Type} [Num W]

theorem Start.surrounded {P : Platform} {a : Args W} {o : Outs} {n : Nat} (hm : ValidMesh a n) (hp : ValidParams P a)
    (hcor : a.correction = true) {c : PoolCfg W} {k : Cont} {p : Pool} {idx lines : List Nat}
    (h : Start P a o c n k p idx lines) :
    ∃ f0 : List Nat, agglomerateOneLevel P { a with correction := false } o = (⟨f0, idx, lines⟩, .ok ()) ∧ f0.length = n ∧
      (Surrounded a.rowPtr a.colInd f0 k.counter (sizeLimit a) →
        ∃ f, agglomerateOneLevel P a o = (⟨f, idx, lines⟩, .ok ()) ∧
          CorrectsSmall a.rowPtr a.colInd k.counter (sizeLimit a) f0 f) := by
  have hn := graphOf_nbC hm
  have hcrs : ValidCRS (graphOf a).nbC (graphOf a).rowPtr (graphOf a).colInd := by rw [hn]; exact hm.crs
  obtain ⟨k1, p1, hg⟩ := grown_ok hm hp h
  have hg' : Grown P a.uncorrected o n k c p p1 k1 := ⟨hg.eq, hg.inv, hg.all⟩
  obtain ⟨f0, g1, g2, g3, g5⟩ := run_plain hp.uncorrected h.uncorrected hm.uncorrected hg' rfl
  refine ⟨f0, g1, g2, ?_⟩
  intro hS
  have hci : CInv n k1 := by have := hg.inv.cinv; rwa [show (isoEnvOf P a c).g.nbC = n from hn] at this
  have hrd := reads_plain hci g2 g3
  have ht : k1.thresh = sizeLimit a := by
    rw [hg.inv.thresh, h.thresh]
    unfold effThresh sizeLimit
    have := hp.minCard
    split <;> congr 1 <;> omega
  have hiso : ∀ j cc, k1.ccs.find? j = some cc → (cc.iso = true ↔ k.counter ≤ j) := by
    intro j cc hj
    constructor
    · intro hi
      by_contra hlt
      rw [hg.inv.old j (by omega)] at hj
      rw [h.aniso j cc hj] at hi; cases hi
    · intro hle
      exact (hg.inv.iso j cc hle hj).1
  have hencl : ∀ j, Enclosed a.rowPtr a.colInd f0 k.counter j → ClosedCC (graphOf a) k1 j := by
    intro j he x y hx hxy
    rcases he x y ((g3 x j).2 hx) hxy with h1 | ⟨r, h1, h2⟩
    · exact Or.inl ((g3 y j).1 h1)
    · obtain ⟨cc, hcc⟩ := hrd.cc h1
      refine Or.inr ⟨r, cc, (g3 y r).1 h1, hcc, ?_⟩
      by_contra hne
      have := (hiso r cc hcc).1 (by simpa using hne)
      omega
  have hSC : SurroundedC (graphOf a) k1 := by
    intro j cc hj hi hcard
    rw [ht] at hcard
    have hpos := (hci.card j cc hj)
    obtain ⟨x, hx⟩ := NSet.card_pos_iff.1 (show 0 < cc.fcs.card by omega)
    rcases hS j ((hiso j cc hj).1 hi) (List.mem_of_getElem? ((hrd.mem hj x).1 hx)) (by rw [hrd.count hj]; exact hcard) with h1 | h1
    · left
      intro x hx
      obtain ⟨y, r, e1, e2, e3, e4⟩ := h1 x ((hrd.mem hj x).1 hx)
      obtain ⟨rcc, hr⟩ := hrd.cc e2
      refine ⟨y, r, e1, (g3 y r).1 e2, rcc, hr, (hiso r rcc hr).2 e3, ?_⟩
      rw [ht, ← hrd.count hr]; exact e4
    · exact Or.inr (hencl j h1)
  obtain ⟨k2, hk2, N, hN⟩ := (correct_surrounded hcrs hm.sym P.hash (absorbs_sound hcrs hm.sym) (absorbsAll_sound hcrs hm.sym)
    hg.inv.cinv hSC (by
      intro j cc hf hi
      obtain ⟨_, hgood⟩ := hg.inv.iso j cc ((hiso j cc hf).1 hi) hf
      exact ⟨hgood.conn, hgood.compact⟩) (by
      intro i hi
      rw [hn] at hi
      exact hci.complete hg.all hi)).eq
  have hN1 := hN.len
  have hN2 := hN.total
  rw [hn] at hN1 hN2
  obtain ⟨f, hf, hl, hi⟩ := fill_ok hN1 hN2
  have hr := run_eq h hp.aspect hg (k2 := k2) (by unfold correctIf; rw [hcor]; exact hk2) hf
  have hrd2 : Reads n N k2 f := ⟨hl, hi, hN.keys, hN.range, hN.part, hN.card⟩
  have hlow : ∀ j, j < k.counter → k2.ccs.find? j = k1.ccs.find? j := by
    refine hN.aniso k.counter ?_
    intro j hj
    obtain ⟨cc, hcc⟩ := NMap.mem_keys.1 ((h.cinv.keys j).2 hj)
    have h1 := hg.inv.old j hj
    exact ⟨cc, by rw [h1, hcc], h.aniso j cc hcc⟩
  have hlines : ∀ (i : Nat) j, j < k.counter → (f[i]? = some j ↔ f0[i]? = some j) := by
    intro i j hj
    obtain ⟨cc, hcc⟩ := NMap.mem_keys.1 ((h.cinv.keys j).2 hj)
    have h1 : k1.ccs.find? j = some cc := by rw [hg.inv.old j hj, hcc]
    have h2 : k2.ccs.find? j = some cc := by rw [hlow j hj, h1]
    rw [← hrd2.mem h2, ← hrd.mem h1]
  have hhigh : ∀ j cc, k2.ccs.find? j = some cc → k.counter ≤ j → cc.iso = true := by
    intro j cc hj hle
    have hpos := hN.card j cc hj
    obtain ⟨x, hx⟩ := NSet.card_pos_iff.1 (show 0 < cc.fcs.card by omega)
    have hx1 := (hrd2.mem hj x).1 hx
    have hxn : x < n := by rw [← hl]; exact (List.getElem?_eq_some_iff.1 hx1).1
    obtain ⟨j0, hj0⟩ := hci.complete hg.all hxn
    obtain ⟨cc0, hc0⟩ := hci.keys' (hci.range x j0 hj0)
    rw [hN.flag x j cc j0 cc0 ((hi x j).1 hx1) hj hj0 hc0, hiso j0 cc0 hc0]
    by_contra hlt
    have := (hlines x j0 (by omega)).2 ((g3 x j0).2 hj0)
    rw [hx1] at this
    simp at this
    omega
  refine ⟨f, hr.1, by rw [hl, g2], ?_, ?_, hlines, ?_, ?_, ?_⟩
  · refine ⟨N, fun j => ?_⟩
    constructor
    · intro hj
      obtain ⟨i, hi'⟩ := List.mem_iff_getElem?.1 hj
      exact hN.range i j ((hi i j).1 hi')
    · intro hj
      obtain ⟨cc, hcc⟩ := NMap.mem_keys.1 ((hN.keys j).2 hj)
      have hpos := hN.card j cc hcc
      obtain ⟨x, hx⟩ := NSet.card_pos_iff.1 (show 0 < cc.fcs.card by omega)
      exact List.mem_of_getElem? ((hrd2.mem hcc x).1 hx)
  · intro i j x y hx hy h1 h2
    obtain ⟨ccx, hcx⟩ := hrd.cc hx
    obtain ⟨ccy, hcy⟩ := hrd.cc hy
    rw [hrd.count hcx, ← ht] at h1
    rw [hrd.count hcy, ← ht] at h2
    rw [hN.big i j x y ccx ccy ((g3 i x).1 hx) ((g3 j y).1 hy) hcx hcy h1 h2]
    have hin : i < n := by rw [← g2]; exact (List.getElem?_eq_some_iff.1 hx).1
    have hjn : j < n := by rw [← g2]; exact (List.getElem?_eq_some_iff.1 hy).1
    obtain ⟨u, hu⟩ := hN2 i hin
    obtain ⟨v, hv⟩ := hN2 j hjn
    rw [(hi i u).2 hu, (hi j v).2 hv, hu, hv]
    simp
  · intro j hj
    by_cases hjN : j < N
    · obtain ⟨cc, hcc⟩ := NMap.mem_keys.1 ((hN.keys j).2 hjN)
      have := (hN.good j cc hcc (hhigh j cc hcc hj)).1
      intro x y hx hy
      obtain ⟨l, hl'⟩ := this x y ((hrd2.mem hcc x).2 hx) ((hrd2.mem hcc y).2 hy)
      exact ⟨l, hl'.mono (fun u v ⟨h1, h2, h3⟩ => ⟨h1, (hrd2.mem hcc u).1 h2, (hrd2.mem hcc v).1 h3⟩)⟩
    · intro x y hx
      exact absurd (hN.range x j ((hi x j).1 hx)) hjN
  · intro j hj hjf
    obtain ⟨i, hi'⟩ := List.mem_iff_getElem?.1 hjf
    obtain ⟨cc, hcc⟩ := hrd2.cc hi'
    rcases hN.left j cc hcc (hhigh j cc hcc hj) with h1 | ⟨j0, h1, h2⟩
    · left; rw [hrd2.count hcc, ← ht]; exact h1
    · right
      intro x y hx hxy
      have hxm := (hrd2.mem hcc x).2 hx
      rcases h1 x y ((hci.part j0 cc h2 x).1 hxm) hxy with e1 | ⟨r, rcc, e1, e2, e3⟩
      · exact Or.inl ((hrd2.mem hcc y).1 ((hci.part j0 cc h2 y).2 e1))
      · have hrl : r < k.counter := by
          by_contra hge
          rw [(hiso r rcc e2).2 (by omega)] at e3; cases e3
        exact Or.inr ⟨r, (hlines y r hrl).2 ((g3 y r).2 e1), hrl⟩
  · intro j hj hcard he i i' hii
    obtain ⟨cc, hcc⟩ := hrd.cc hii
    obtain ⟨j', hj'⟩ := hN.closed j cc hcc ((hiso j cc hcc).2 hj) (by rw [ht, ← hrd.count hcc]; exact hcard) (hencl j he)
    have h1 := (hrd2.mem hj' i).1 ((hrd.mem hcc i).2 hii)
    rw [h1, ← hrd2.mem hj', ← hrd.mem hcc]

/-- **C12** (isotropic calls) Correction with any threshold.  If every coarse cell the same
call without correction leaves small can be absorbed completely (each of its fine cells has
a neighbour in a larger coarse cell) or not at all, then the call succeeds, indices are
contiguous, larger coarse cells stay together and apart, coarse cells are connected and no
small one is left, except those without neighbour.  Missing from the full claim: a small
coarse cell that can only be absorbed in part (see `C12_counterexample`), and that a small
coarse cell is not split between receivers (see `C12_split`). -/
theorem C12_isotropic_partial {P : Platform} {a : Args W} {o : Outs} {n : Nat} (hm : ValidMesh a n) (hp : ValidParams P a)
    (hcor : a.correction = true) (hoff : WithoutLines a o) :
    ∃ f0 : List Nat, agglomerateOneLevel P { a with correction := false } o = (⟨f0, o.linesIdx, o.lines⟩, .ok ()) ∧
      f0.length = n ∧
      (Surrounded a.rowPtr a.colInd f0 0 (sizeLimit a) →
        ∃ f, agglomerateOneLevel P a o = (⟨f, o.linesIdx, o.lines⟩, .ok ()) ∧
          CorrectsSmall a.rowPtr a.colInd 0 (sizeLimit a) f0 f) := by
  obtain ⟨c, k, p, h, rfl⟩ := start_iso hm hp hoff
  exact h.surrounded hm hp hcor

/-- **C12** (anisotropic calls) The same; line cells do not change. -/
theorem C12_anisotropic_partial {P : Platform} {a : Args W} {o : Outs} {n : Nat} (hm : ValidMesh a n) (hp : ValidParams P a)
    (hcor : a.correction = true) {ls : List (List Nat)}
    (hb : (BuildsLines a n ∧ ∀ fls, fineLines P a o = .ok fls → FitsLimit a fls) ∨
      (GivesLines a o n ls ∧ FitsLimit a (ls.filter (fun l => decide (1 < l.length))))) :
    ∃ f0 idx lines, agglomerateOneLevel P { a with correction := false } o = (⟨f0, idx, lines⟩, .ok ()) ∧
      lines = List.range lines.length ∧ f0.length = n ∧
      (Surrounded a.rowPtr a.colInd f0 lines.length (sizeLimit a) →
        ∃ f, agglomerateOneLevel P a o = (⟨f, idx, lines⟩, .ok ()) ∧
          CorrectsSmall a.rowPtr a.colInd lines.length (sizeLimit a) f0 f) := by
  have key : ∀ {fls : List (List Nat)} {c : PoolCfg W} {k : Cont} {p : Pool} {cls : List (List Nat)} {gss : List (List (List Nat))},
      AnisoStart P a o n fls c k p cls gss → ∃ f0 idx lines,
      agglomerateOneLevel P { a with correction := false } o = (⟨f0, idx, lines⟩, .ok ()) ∧
      lines = List.range lines.length ∧ f0.length = n ∧
      (Surrounded a.rowPtr a.colInd f0 lines.length (sizeLimit a) →
        ∃ f, agglomerateOneLevel P a o = (⟨f, idx, lines⟩, .ok ()) ∧
          CorrectsSmall a.rowPtr a.colInd lines.length (sizeLimit a) f0 f) := by
    intro fls c k p cls gss h
    obtain ⟨f0, h1, h2, h3⟩ := h.start.surrounded hm hp hcor
    have e1 : (exportLines cls).2 = cls.flatten := by
      by_cases hc : cls = []
      · subst hc; rfl
      · rw [exportLines_eq hc]
    have e2 := h.done.all
    have e3 := h.done.made.counter
    have e4 : (Cont.new n (effThresh a).toNat).counter = 0 := rfl
    simp only at e2 e3
    rw [e4] at e2 e3
    have e5 : (exportLines cls).2.length = k.counter := by rw [e1, e2, List.length_range']; omega
    refine ⟨f0, _, _, h1, ?_, h2, by rw [e5]; exact h3⟩
    rw [e5, e1, e2, List.range_eq_range']
    congr 1
    omega
  rcases hb with ⟨hb, hno⟩ | ⟨hb, hno⟩
  · obtain ⟨fls, h1, _⟩ := fineLines_build (P := P) (o := o) hm hb
    obtain ⟨c, k, p, cls, gss, h⟩ := built_start hm hp hb h1 (hno fls h1)
    exact key h
  · obtain ⟨c, k, p, cls, gss, h⟩ := given_start hm hp hb hno
    exact key h

/-! ## Counterexamples to the full claim -/

/-- a cell with four neighbours, one of which has another neighbour; threshold 2 -/
def exGap : Args Int :=
  { exArgs with
    rowPtr := [0, 4, 5, 6, 7, 9, 10], colInd := [1, 2, 3, 4, 0, 0, 0, 0, 5, 4], values := List.replicate 10 1,
    volumes := List.replicate 6 1, centers := [[0, 0], [1, 0], [0, 1], [-1, 0], [0, -1], [0, -2]],
    prio := [9, 9, 8, 9, 2, 3], nBnd := List.replicate 6 0, goalCard := 3, minCard := 3, maxCard := 3, singThresh := 2 }

/-- a path of eight cells; threshold 2 -/
def exSplit : Args Int :=
  { exArgs with
    rowPtr := [0, 1, 3, 5, 7, 9, 11, 13, 14], colInd := [1, 0, 2, 1, 3, 2, 4, 3, 5, 4, 6, 5, 7, 6], values := List.replicate 14 1,
    volumes := List.replicate 8 1, centers := [[0, 0], [1, 0], [2, 0], [3, 0], [4, 0], [5, 0], [6, 0], [7, 0]],
    prio := [9, 1, 1, 1, 1, 1, 1, 8], nBnd := List.replicate 8 0, goalCard := 3, minCard := 3, maxCard := 3, singThresh := 2 }

/-- a cycle of five cells; threshold 2 -/
def exCycle : Args Int :=
  { exArgs with
    rowPtr := [0, 2, 4, 6, 8, 10], colInd := [1, 3, 0, 2, 1, 4, 0, 4, 2, 3], values := List.replicate 10 1,
    volumes := List.replicate 5 1, centers := [[0, 0], [1, 0], [2, 0], [0, 1], [2, 1]],
    prio := [9, 8, 7, 1, 1], nBnd := List.replicate 5 0, goalCard := 3, minCard := 3, maxCard := 3, singThresh := 2 }

theorem exGap_crs : ValidCRS 6 exGap.rowPtr exGap.colInd := checkCRS_sound (by decide)

theorem exGap_valid : ValidMesh exGap 6 where
  pos := by decide
  crs := exGap_crs
  sym := checkSym_sound exGap_crs (by decide)
  uniq := Or.inl (checkUniq_sound exGap_crs (by decide))
  values := rfl
  volumes := rfl
  centers := rfl
  prio := rfl
  bnd := rfl
  coords := ⟨2, by decide⟩

theorem exGap_params : ValidParams exPlatform exGap where
  dim := by decide
  minCard := by decide
  goalCard := by decide
  maxCard := by decide
  iter := by decide
  thresh := by decide
  order := by decide
  aspect := by decide
  onePoint := by decide

theorem exSplit_crs : ValidCRS 8 exSplit.rowPtr exSplit.colInd := checkCRS_sound (by decide)

theorem exSplit_valid : ValidMesh exSplit 8 where
  pos := by decide
  crs := exSplit_crs
  sym := checkSym_sound exSplit_crs (by decide)
  uniq := Or.inl (checkUniq_sound exSplit_crs (by decide))
  values := rfl
  volumes := rfl
  centers := rfl
  prio := rfl
  bnd := rfl
  coords := ⟨2, by decide⟩

theorem exSplit_params : ValidParams exPlatform exSplit where
  dim := by decide
  minCard := by decide
  goalCard := by decide
  maxCard := by decide
  iter := by decide
  thresh := by decide
  order := by decide
  aspect := by decide
  onePoint := by decide

theorem exCycle_crs : ValidCRS 5 exCycle.rowPtr exCycle.colInd := checkCRS_sound (by decide)

theorem exCycle_valid : ValidMesh exCycle 5 where
  pos := by decide
  crs := exCycle_crs
  sym := checkSym_sound exCycle_crs (by decide)
  uniq := Or.inl (checkUniq_sound exCycle_crs (by decide))
  values := rfl
  volumes := rfl
  centers := rfl
  prio := rfl
  bnd := rfl
  coords := ⟨2, by decide⟩

theorem exCycle_params : ValidParams exPlatform exCycle where
  dim := by decide
  minCard := by decide
  goalCard := by decide
  maxCard := by decide
  iter := by decide
  thresh := by decide
  order := by decide
  aspect := by decide
  onePoint := by decide

/-- The full claim is false: with threshold 2 a valid call can return indices with a gap and
separate two fine cells that were in one coarse cell, because a coarse cell of which only
one fine cell could be absorbed is removed all the same. -/
theorem C12_counterexample : ∃ (a : Args Int) (f f0 : List Nat), ValidMesh a 6 ∧ ValidParams exPlatform a ∧ a.correction = true ∧
    agglomerateOneLevel exPlatform a ⟨[], [], []⟩ = (⟨f, [], []⟩, .ok ()) ∧
    agglomerateOneLevel exPlatform { a with correction := false } ⟨[], [], []⟩ = (⟨f0, [], []⟩, .ok ()) ∧
    ¬ Contiguous f ∧ ¬ IsCoarsening f0 f := by
  refine ⟨exGap, [0, 0, 0, 0, 0, 2], [0, 0, 0, 1, 2, 2], exGap_valid, exGap_params, rfl, by decide +kernel, by decide +kernel, ?_, ?_⟩
  · rintro ⟨N, hN⟩
    have h1 := (hN 2).1 (by decide)
    have h2 := (hN 1).2 (by omega)
    revert h2
    decide
  · intro h
    exact absurd (h.2 4 5 2 rfl rfl) (by decide)

/-- Even a small coarse cell that can be absorbed completely may be split between receivers. -/
theorem C12_split : ∃ (a : Args Int) (f f0 : List Nat), ValidMesh a 8 ∧ ValidParams exPlatform a ∧ a.correction = true ∧
    agglomerateOneLevel exPlatform a ⟨[], [], []⟩ = (⟨f, [], []⟩, .ok ()) ∧
    agglomerateOneLevel exPlatform { a with correction := false } ⟨[], [], []⟩ = (⟨f0, [], []⟩, .ok ()) ∧
    Surrounded a.rowPtr a.colInd f0 0 (sizeLimit a) ∧ ¬ IsCoarsening f0 f := by
  refine ⟨exSplit, [0, 0, 0, 0, 1, 1, 1, 1], [0, 0, 0, 2, 2, 1, 1, 1], exSplit_valid, exSplit_params, rfl, by decide +kernel,
    by decide +kernel, ?_, ?_⟩
  · intro k _ hk hc
    have : k = 0 ∨ k = 1 ∨ k = 2 := by have hk' := hk; simp at hk'; omega
    rcases this with rfl | rfl | rfl
    · exact absurd hc (by decide)
    · exact absurd hc (by decide)
    · left
      intro x hx
      have hxl : x < 8 := (List.getElem?_eq_some_iff.1 hx).1
      have : x = 3 ∨ x = 4 := by
        rcases (by omega : x = 0 ∨ x = 1 ∨ x = 2 ∨ x = 3 ∨ x = 4 ∨ x = 5 ∨ x = 6 ∨ x = 7) with
          rfl | rfl | rfl | rfl | rfl | rfl | rfl | rfl <;> simp at hx ⊢
      rcases this with rfl | rfl
      · exact ⟨2, 0, ⟨5, 7, 5, rfl, rfl, by decide, by decide, rfl⟩, rfl, by decide, by decide⟩
      · exact ⟨5, 1, ⟨7, 9, 8, rfl, rfl, by decide, by decide, rfl⟩, rfl, by decide, by decide⟩
  · intro h
    exact absurd (h.2 3 4 2 rfl rfl) (by decide)

/-! ## Concrete cases -/

example : sizeLimit exCycle = 2 := by decide

theorem exCycle_plain : agglomerateOneLevel exPlatform { exCycle with correction := false } ⟨[], [], []⟩ =
    (⟨[0, 0, 1, 0, 1], [], []⟩, .ok ()) := by decide +kernel

theorem exCycle_surrounded : Surrounded exCycle.rowPtr exCycle.colInd [0, 0, 1, 0, 1] 0 2 := by
  intro k _ hk hc
  have : k = 0 ∨ k = 1 := by have hk' := hk; simp at hk'; omega
  rcases this with rfl | rfl
  · exact absurd hc (by decide)
  · left
    intro x hx
    have hxl : x < 5 := (List.getElem?_eq_some_iff.1 hx).1
    have : x = 2 ∨ x = 4 := by
      rcases (by omega : x = 0 ∨ x = 1 ∨ x = 2 ∨ x = 3 ∨ x = 4) with rfl | rfl | rfl | rfl | rfl <;> simp at hx ⊢
    rcases this with rfl | rfl
    · exact ⟨1, 0, ⟨4, 6, 4, rfl, rfl, by decide, by decide, rfl⟩, rfl, by decide, by decide⟩
    · exact ⟨3, 0, ⟨8, 10, 9, rfl, rfl, by decide, by decide, rfl⟩, rfl, by decide, by decide⟩

/-- both cells of the small coarse cell are absorbed -/
example : ∃ f, agglomerateOneLevel exPlatform exCycle ⟨[], [], []⟩ = (⟨f, [], []⟩, .ok ()) ∧
    CorrectsSmall exCycle.rowPtr exCycle.colInd 0 2 [0, 0, 1, 0, 1] f := by
  obtain ⟨f0, h1, _, h2⟩ := C12_isotropic_partial (o := ⟨[], [], []⟩) exCycle_valid exCycle_params rfl (Or.inl rfl)
  rw [exCycle_plain] at h1
  simp only [Prod.mk.injEq, Outs.mk.injEq, and_true] at h1
  rw [← h1] at h2
  exact h2 exCycle_surrounded

example := C12_anisotropic_partial exGiven_valid exGiven_params rfl
  (Or.inr ⟨exGiven_lines, by intro l _ m h; cases h⟩)

end CoMMA
