import Verif.Lemmas.AnyThreshold
import Verif.Props.Threshold
/-! # C12, C56: correction with any threshold, exactly -/

set_option linter.unusedSectionVars false

namespace CoMMA

variable {W : Type} [Num W]

theorem length_filter_range_of_all {k : Nat} {p : Nat → Bool} (h : ∀ j, j < k → p j = true) :
    ((List.range k).filter p).length = k := by
  rw [List.filter_eq_self.2 (fun j hj => h j (List.mem_range.1 hj)), List.length_range]

theorem length_filter_range_mono {p : Nat → Bool} {a b : Nat} (hab : a ≤ b) :
    ((List.range a).filter p).length ≤ ((List.range b).filter p).length := by
  have : List.range b = List.range a ++ (List.range' a (b - a)) := by
    rw [List.range_eq_range', List.range_eq_range']
    have h := List.range'_append_1 (s := 0) (m := a) (n := b - a)
    rw [Nat.zero_add] at h
    rw [h]
    congr 1
    omega
  rw [this, List.filter_append, List.length_append]
  omega

theorem length_filter_range_lt {p : Nat → Bool} {a b : Nat} (hab : a < b) (ha : p a = true) :
    ((List.range a).filter p).length < ((List.range b).filter p).length := by
  have h1 := length_filter_range_mono (p := p) (show a + 1 ≤ b by omega)
  rw [List.range_succ, List.filter_append, List.length_append] at h1
  simp only [List.filter_cons, List.filter_nil, ha, if_true, List.length_singleton] at h1
  omega

/-- the situation before correction, with any threshold -/
theorem Start.aenv {P : Platform} {a : Args W} {o : Outs} {n : Nat} (hm : ValidMesh a n) (hp : ValidParams P a)
    {c : PoolCfg W} {k : Cont} {p : Pool} {idx lines : List Nat} (h : Start P a o c n k p idx lines) :
    ∃ k1 p1 f0, Grown P a o n k c p p1 k1 ∧
      agglomerateOneLevel P { a with correction := false } o = (⟨f0, idx, lines⟩, .ok ()) ∧ f0.length = n ∧
      k1.thresh = sizeLimit a ∧ AEnv (graphOf a) k1 f0 k.counter := by
  have hn := graphOf_nbC hm
  have hcrs : ValidCRS (graphOf a).nbC (graphOf a).rowPtr (graphOf a).colInd := by rw [hn]; exact hm.crs
  obtain ⟨k1, p1, hg⟩ := grown_ok hm hp h
  have hg' : Grown P a.uncorrected o n k c p p1 k1 := ⟨hg.eq, hg.inv, hg.all⟩
  obtain ⟨f0, g1, g2, g3, g5⟩ := run_plain hp.uncorrected h.uncorrected hm.uncorrected hg' rfl
  have hci : CInv n k1 := by have := hg.inv.cinv; rwa [show (isoEnvOf P a c).g.nbC = n from hn] at this
  have hmin := hp.minCard
  have ht : k1.thresh = sizeLimit a := by
    rw [hg.inv.thresh, h.thresh]
    unfold effThresh sizeLimit
    split <;> congr 1 <;> omega
  have hmn : (isoEnvOf P a c).minCard = a.minCard.toNat := cardOr_pos (by omega)
  have hiso : ∀ j cc, k1.ccs.find? j = some cc → (cc.iso = true ↔ k.counter ≤ j) := by
    intro j cc hj
    constructor
    · intro hi
      by_contra hlt
      rw [hg.inv.old j (by omega)] at hj
      rw [h.aniso j cc hj] at hi; cases hi
    · intro hle
      exact (hg.inv.iso j cc hle hj).1
  have hbelow : ∀ j l x y, j ∈ k1.singular → f0[x]? = some j → f0[y]? = some l →
      Adj (graphOf a).rowPtr (graphOf a).colInd x y → l ≤ j := by
    intro j l x y hj hx hy hxy
    obtain ⟨cc, h1, h2, h3⟩ := (hci.sing j).1 hj
    have hle := (hiso j cc h1).1 h2
    have hsl : cc.card < (isoEnvOf P a c).minCard := by
      rw [hmn]
      rw [ht] at h3
      unfold sizeLimit at h3
      omega
    rcases (hg.inv.iso j cc hle h1).2.small hsl x ((hci.part j cc h1 x).2 ((g3 x j).1 hx)) y hxy with e1 | ⟨k', e1, e2⟩
    · have := (g3 y j).2 ((hci.part j cc h1 y).1 e1)
      rw [hy] at this; cases this; exact Nat.le_refl _
    · have := (g3 y k').2 e2
      rw [hy] at this; cases this; omega
  have hE : AEnv (graphOf a) k1 f0 k.counter := by
    refine ⟨hcrs, hm.sym, by rw [hn]; exact hci, ⟨by rw [hn]; exact g2, g3⟩, ?_, hiso, ?_, ?_⟩
    · intro i hi
      rw [hn, ← g2] at hi
      exact ⟨_, List.getElem?_eq_getElem hi⟩
    · intro j cc hj hi
      obtain ⟨_, hgood⟩ := hg.inv.iso j cc ((hiso j cc hj).1 hi) hj
      exact ⟨hgood.conn, hgood.compact⟩
    · intro j l x y hj hl hx hy hxy
      have h1 := hbelow j l x y hj hx hy hxy
      have h2 := hbelow l j y x hl hy hx (hm.sym _ _ hxy)
      omega
  exact ⟨k1, p1, f0, hg, g1, g2, ht, hE⟩

/-- the situation after growth, for correction with any threshold -/
theorem Start.any {P : Platform} {a : Args W} {o : Outs} {n : Nat} (hm : ValidMesh a n) (hp : ValidParams P a)
    (hcor : a.correction = true) {c : PoolCfg W} {k : Cont} {p : Pool} {idx lines : List Nat}
    (h : Start P a o c n k p idx lines) :
    ∃ f f0 : List Nat, agglomerateOneLevel P a o = (⟨f, idx, lines⟩, .ok ()) ∧
      agglomerateOneLevel P { a with correction := false } o = (⟨f0, idx, lines⟩, .ok ()) ∧ f0.length = n ∧
      KeepsLarge k.counter (sizeLimit a) f0 f ∧
      (UniqueRows a.rowPtr a.colInd → NoSelfLoop a.rowPtr a.colInd →
        SmallCorrectionOf a.rowPtr a.colInd k.counter (sizeLimit a) f0 f) := by
  have hn := graphOf_nbC hm
  obtain ⟨k1, p1, f0, hg, g1, g2, ht, hE⟩ := h.aenv hm hp
  have hci : CInv n k1 := by have := hE.cinv; rwa [hn] at this
  have hiso := hE.isoIff
  have g3 := hE.views.get
  obtain ⟨k2, hk2, f1, D, c1, rem, hT, hD, hV, hlen2, hspec⟩ := (correct_any hE P.hash).eq
  have hVl := hV.len
  rw [hn] at hVl
  have htot2 : ∀ i : Nat, i < n → ∃ j, k2.fc2cc[i]? = some (some j) := by
    intro i hi
    rw [← hVl] at hi
    exact ⟨_, (hV.get i _).1 (List.getElem?_eq_getElem hi)⟩
  obtain ⟨f, hf, hl, hi⟩ := fill_ok (by rw [← hn]; exact hlen2) htot2
  have hr := run_eq h hp.aspect hg (k2 := k2) (by unfold correctIf; rw [hcor]; exact hk2) hf
  have hff : f = renumberedBut f1 D := by
    apply List.ext_getElem?
    intro i
    apply Option.ext
    intro j
    rw [hi, hV.get]
  subst hff
  have hDm : ∀ j ∈ D, j ∈ k1.singular := fun j hj => hT.remIn j ((hD j).1 hj)
  have hDk : ∀ j ∈ D, k.counter ≤ j := by
    intro j hj
    obtain ⟨cc, e1, e2, _⟩ := (hci.sing j).1 (hDm j hj)
    exact (hiso j cc e1).1 e2
  have hcount : ∀ j cc, k1.ccs.find? j = some cc → f0.count j = cc.card :=
    fun j cc hcc => ((ThrInv_init hE).live j cc hcc).count
  have hlen1 : f1.length = n := by rw [hT.views.len, hn]
  -- cells of coarse cells that are not small do not move
  have hstay : ∀ (i : Nat) j, f0[i]? = some j → j ∉ k1.singular → f1[i]? = some j := by
    intro i j hij hj
    have hin : i < f1.length := by rw [hlen1, ← g2]; exact (List.getElem?_eq_some_iff.1 hij).1
    rcases hT.dest i _ (List.getElem?_eq_getElem hin) with e1 | ⟨_, _, s, hs, e1⟩
    · rw [hij] at e1; cases e1; exact List.getElem?_eq_getElem hin
    · rw [hij] at e1; cases e1; exact absurd hs hj
  have hren : ∀ (i : Nat) j, f1[i]? = some j → (renumberedBut f1 D)[i]? =
      some (if j ∈ D then j else ((List.range j).filter (fun l => decide (l ∉ D))).length) := by
    intro i j hij
    unfold renumberedBut
    rw [List.getElem?_map, hij]; rfl
  have hlow : ∀ j, j ≤ k.counter → ((List.range j).filter (fun l => decide (l ∉ D))).length = j := by
    intro j hj
    refine length_filter_range_of_all ?_
    intro l hl
    rw [decide_eq_true_eq]
    intro hlD
    have := hDk l hlD
    omega
  refine ⟨_, f0, hr.1, g1, g2, ⟨by rw [hl, g2], ?_, ?_⟩, ?_⟩
  · intro i j x y hx hy h1 h2
    have hns : ∀ {u l : Nat}, f0[u]? = some l → sizeLimit a < f0.count l → l ∉ k1.singular := by
      intro u l hu hl hs
      obtain ⟨cc, e1, _, e3⟩ := (hci.sing l).1 hs
      rw [hcount l cc e1, ← ht] at hl
      omega
    have nx := hns hx h1
    have ny := hns hy h2
    have dx : x ∉ D := fun hd => nx (hDm x hd)
    have dy : y ∉ D := fun hd => ny (hDm y hd)
    rw [hren i x (hstay i x hx nx), hren j y (hstay j y hy ny), if_neg dx, if_neg dy]
    constructor
    · intro he
      simp only [Option.some.injEq] at he
      rcases Nat.lt_trichotomy x y with hl | hl | hl
      · have := length_filter_range_lt (p := fun l => decide (l ∉ D)) hl (by simp [dx]); omega
      · exact hl
      · have := length_filter_range_lt (p := fun l => decide (l ∉ D)) hl (by simp [dy]); omega
    · rintro rfl; rfl
  · intro i j hj
    have hjs : j ∉ k1.singular := by
      intro hs
      obtain ⟨cc, e1, e2, _⟩ := (hci.sing j).1 hs
      have := (hiso j cc e1).1 e2
      omega
    constructor
    · intro he
      have hin : i < f1.length := by
        have := (List.getElem?_eq_some_iff.1 he).1
        rw [hl] at this
        rw [hlen1]; exact this
      have e1 := hren i _ (List.getElem?_eq_getElem hin)
      rw [he] at e1
      simp only [Option.some.injEq] at e1
      have hx : f1[i] = j := by
        by_cases hd : f1[i] ∈ D
        · rw [if_pos hd] at e1
          exact e1.symm
        · rw [if_neg hd] at e1
          rcases Nat.lt_or_ge f1[i] k.counter with hlt | hge
          · rw [hlow _ (by omega)] at e1
            exact e1.symm
          · have h1 := length_filter_range_mono (p := fun l => decide (l ∉ D)) hge
            rw [hlow k.counter (Nat.le_refl _)] at h1
            omega
      rcases hT.dest i _ (List.getElem?_eq_getElem hin) with e1 | ⟨_, e1, _⟩
      · rw [e1, hx]
      · omega
    · intro he
      rw [hren i j (hstay i j he hjs), if_neg (fun hd => hjs (hDm j hd)), hlow j (by omega)]
  · intro hu hnl
    refine ⟨k1.counter, f1, D, ?_, ?_, rfl⟩
    · intro j
      constructor
      · intro hj
        obtain ⟨i, hi'⟩ := List.mem_iff_getElem?.1 hj
        exact hci.range i j ((g3 i j).1 hi')
      · intro hj
        obtain ⟨cc, hcc⟩ := hci.keys' hj
        have hpos := hci.card j cc hcc
        obtain ⟨x, hx⟩ := NSet.card_pos_iff.1 (show 0 < cc.fcs.card by omega)
        exact List.mem_of_getElem? ((g3 x j).2 ((hci.part j cc hcc x).1 hx))
    · rw [← ht]
      exact hspec hu hnl

/-- **C12** (all thresholds, no condition on the mesh) Correction never fails, coarse cells that
are not small stay together and apart, and coarse cells made from lines do not change.  Missing
from the full claim: what becomes of the small ones, see `C12_counterexample`, `C12_split`,
`C12_collision` and, for an exact description, C56. -/
theorem C12_large_partial {P : Platform} {a : Args W} {o : Outs} {n : Nat} (hm : ValidMesh a n) (hp : ValidParams P a)
    (hcor : a.correction = true) (hoff : WithoutLines a o) :
    ∃ f f0 : List Nat, agglomerateOneLevel P a o = (⟨f, o.linesIdx, o.lines⟩, .ok ()) ∧
      agglomerateOneLevel P { a with correction := false } o = (⟨f0, o.linesIdx, o.lines⟩, .ok ()) ∧ f0.length = n ∧
      KeepsLarge 0 (sizeLimit a) f0 f := by
  obtain ⟨c, k, p, h, e⟩ := start_iso hm hp hoff
  obtain ⟨f, f0, h1, h2, h3, h4, _⟩ := h.any hm hp hcor
  rw [e] at h4
  exact ⟨f, f0, h1, h2, h3, h4⟩

/-- **C56** (isotropic calls) With correction, the returned vector is that of the same call without
correction, in which the small coarse cells are treated one by one as `SmallCorrectionOf` says;
the other outputs do not change. -/
theorem C56_isotropic {P : Platform} {a : Args W} {o : Outs} {n : Nat} (hm : ValidMesh a n) (hp : ValidParams P a)
    (hcor : a.correction = true) (hoff : WithoutLines a o) (hu : UniqueRows a.rowPtr a.colInd)
    (hl : NoSelfLoop a.rowPtr a.colInd) :
    ∃ f f0 : List Nat, agglomerateOneLevel P a o = (⟨f, o.linesIdx, o.lines⟩, .ok ()) ∧
      agglomerateOneLevel P { a with correction := false } o = (⟨f0, o.linesIdx, o.lines⟩, .ok ()) ∧
      SmallCorrectionOf a.rowPtr a.colInd 0 (sizeLimit a) f0 f := by
  obtain ⟨c, k, p, h, e⟩ := start_iso hm hp hoff
  obtain ⟨f, f0, h1, h2, _, _, h3⟩ := h.any hm hp hcor
  have h4 := h3 hu hl
  rw [e] at h4
  exact ⟨f, f0, h1, h2, h4⟩

/-- both claims for anisotropic calls -/
theorem any_anisotropic {P : Platform} {a : Args W} {o : Outs} {n : Nat} (hm : ValidMesh a n) (hp : ValidParams P a)
    (hcor : a.correction = true) {ls : List (List Nat)}
    (hb : (BuildsLines a n ∧ ∀ fls, fineLines P a o = .ok fls → FitsLimit a fls) ∨
      (GivesLines a o n ls ∧ FitsLimit a (ls.filter (fun l => decide (1 < l.length))))) :
    ∃ f f0 idx lines, agglomerateOneLevel P a o = (⟨f, idx, lines⟩, .ok ()) ∧
      agglomerateOneLevel P { a with correction := false } o = (⟨f0, idx, lines⟩, .ok ()) ∧
      lines = List.range lines.length ∧ f0.length = n ∧ KeepsLarge lines.length (sizeLimit a) f0 f ∧
      (UniqueRows a.rowPtr a.colInd → NoSelfLoop a.rowPtr a.colInd →
        SmallCorrectionOf a.rowPtr a.colInd lines.length (sizeLimit a) f0 f) := by
  have key : ∀ {fls : List (List Nat)} {c : PoolCfg W} {k : Cont} {p : Pool} {cls : List (List Nat)} {gss : List (List (List Nat))},
      AnisoStart P a o n fls c k p cls gss → ∃ f f0 idx lines, agglomerateOneLevel P a o = (⟨f, idx, lines⟩, .ok ()) ∧
      agglomerateOneLevel P { a with correction := false } o = (⟨f0, idx, lines⟩, .ok ()) ∧
      lines = List.range lines.length ∧ f0.length = n ∧ KeepsLarge lines.length (sizeLimit a) f0 f ∧
      (UniqueRows a.rowPtr a.colInd → NoSelfLoop a.rowPtr a.colInd →
        SmallCorrectionOf a.rowPtr a.colInd lines.length (sizeLimit a) f0 f) := by
    intro fls c k p cls gss h
    obtain ⟨f, f0, h1, h2, h3, h4, h5⟩ := h.start.any hm hp hcor
    have e1 : (exportLines cls).2 = cls.flatten := by
      by_cases hc : cls = []
      · subst hc; rfl
      · rw [exportLines_eq hc]
    have e2 := h.done.all
    have e3 := h.done.made.counter
    have e4 : (Cont.new n (effThresh a).toNat).counter = 0 := rfl
    simp only at e2 e3
    rw [e4] at e2 e3
    have e5 : (exportLines cls).2.length = k.counter := by rw [e1, e2, List.length_range']; omega
    refine ⟨f, f0, _, _, h1, h2, ?_, h3, by rw [e5]; exact h4, by rw [e5]; exact h5⟩
    rw [e5, e1, e2, List.range_eq_range']
    congr 1
    omega
  rcases hb with ⟨hb, hno⟩ | ⟨hb, hno⟩
  · obtain ⟨fls, h1, _⟩ := fineLines_build (P := P) (o := o) hm hb
    obtain ⟨c, k, p, cls, gss, h⟩ := built_start hm hp hb h1 (hno fls h1)
    exact key h
  · obtain ⟨c, k, p, cls, gss, h⟩ := given_start hm hp hb hno
    exact key h

/-- **C12** (anisotropic calls, all thresholds) The same as `C12_large_partial`. -/
theorem C12_large_anisotropic_partial {P : Platform} {a : Args W} {o : Outs} {n : Nat} (hm : ValidMesh a n)
    (hp : ValidParams P a) (hcor : a.correction = true) {ls : List (List Nat)}
    (hb : (BuildsLines a n ∧ ∀ fls, fineLines P a o = .ok fls → FitsLimit a fls) ∨
      (GivesLines a o n ls ∧ FitsLimit a (ls.filter (fun l => decide (1 < l.length))))) :
    ∃ f f0 idx lines, agglomerateOneLevel P a o = (⟨f, idx, lines⟩, .ok ()) ∧
      agglomerateOneLevel P { a with correction := false } o = (⟨f0, idx, lines⟩, .ok ()) ∧
      lines = List.range lines.length ∧ f0.length = n ∧ KeepsLarge lines.length (sizeLimit a) f0 f := by
  obtain ⟨f, f0, idx, lines, h1, h2, h3, h4, h5, _⟩ := any_anisotropic hm hp hcor hb
  exact ⟨f, f0, idx, lines, h1, h2, h3, h4, h5⟩

/-- **C56** (anisotropic calls) The same; line cells are never touched. -/
theorem C56_anisotropic {P : Platform} {a : Args W} {o : Outs} {n : Nat} (hm : ValidMesh a n) (hp : ValidParams P a)
    (hcor : a.correction = true) (hu : UniqueRows a.rowPtr a.colInd) (hl : NoSelfLoop a.rowPtr a.colInd)
    {ls : List (List Nat)}
    (hb : (BuildsLines a n ∧ ∀ fls, fineLines P a o = .ok fls → FitsLimit a fls) ∨
      (GivesLines a o n ls ∧ FitsLimit a (ls.filter (fun l => decide (1 < l.length))))) :
    ∃ f f0 idx lines, agglomerateOneLevel P a o = (⟨f, idx, lines⟩, .ok ()) ∧
      agglomerateOneLevel P { a with correction := false } o = (⟨f0, idx, lines⟩, .ok ()) ∧
      lines = List.range lines.length ∧ SmallCorrectionOf a.rowPtr a.colInd lines.length (sizeLimit a) f0 f := by
  obtain ⟨f, f0, idx, lines, h1, h2, h3, _, _, h5⟩ := any_anisotropic hm hp hcor hb
  exact ⟨f, f0, idx, lines, h1, h2, h3, h5 hu hl⟩

/-! ## A removed index used twice -/

/-- a tree of eight cells; threshold 2 -/
def exCollide : Args Int :=
  { exArgs with
    rowPtr := [0, 3, 5, 6, 8, 9, 11, 13, 14], colInd := [1, 2, 3, 0, 5, 0, 0, 4, 3, 1, 6, 5, 7, 6],
    values := List.replicate 14 1, volumes := List.replicate 8 1,
    centers := [[0, 0], [1, 0], [0, 1], [-1, 0], [-2, 0], [1, 2], [1, 3], [1, 4]],
    prio := [9, 9, 8, 7, 7, 1, 1, 1], nBnd := List.replicate 8 0, goalCard := 3, minCard := 3, maxCard := 3, singThresh := 2 }

theorem exCollide_crs : ValidCRS 8 exCollide.rowPtr exCollide.colInd := checkCRS_sound (by decide)

theorem exCollide_valid : ValidMesh exCollide 8 where
  pos := by decide
  crs := exCollide_crs
  sym := checkSym_sound exCollide_crs (by decide)
  uniq := Or.inl (checkUniq_sound exCollide_crs (by decide))
  values := rfl
  volumes := rfl
  centers := rfl
  prio := rfl
  bnd := rfl
  coords := ⟨2, by decide⟩

theorem exCollide_params : ValidParams exPlatform exCollide where
  dim := by decide
  minCard := by decide
  goalCard := by decide
  maxCard := by decide
  iter := by decide
  thresh := by decide
  order := by decide
  aspect := by decide
  onePoint := by decide

/-- A valid call, with indices that look right, can return a coarse cell in two parts without a
common face: fine cell 4 keeps the index 1 of a removed coarse cell, and the coarse cell
with fine cells 5, 6 and 7 is renumbered from 2 to 1. -/
theorem C12_collision : ∃ (a : Args Int) (f f0 : List Nat), ValidMesh a 8 ∧ ValidParams exPlatform a ∧ a.correction = true ∧
    agglomerateOneLevel exPlatform a ⟨[], [], []⟩ = (⟨f, [], []⟩, .ok ()) ∧
    agglomerateOneLevel exPlatform { a with correction := false } ⟨[], [], []⟩ = (⟨f0, [], []⟩, .ok ()) ∧
    ¬ (∀ k, ConnectedSet a.rowPtr a.colInd (fun i => f[i]? = some k)) := by
  refine ⟨exCollide, [0, 0, 0, 0, 1, 1, 1, 1], [0, 0, 0, 1, 1, 2, 2, 2], exCollide_valid, exCollide_params, rfl,
    by decide +kernel, by decide +kernel, ?_⟩
  intro h
  obtain ⟨k, hk⟩ := h 1 5 4 rfl rfl
  cases hk with
  | step _ h1 =>
    obtain ⟨hadj, h2, _⟩ := h1
    replace hadj := exCollide_valid.sym _ _ hadj
    rw [adj_iff_rowOf] at hadj
    have : (rowOf exCollide.rowPtr exCollide.colInd 4) = [3] := by decide
    rw [this, List.mem_singleton] at hadj
    subst hadj
    simp at h2

/-! ## Examples -/

theorem exCollide_uniq : UniqueRows exCollide.rowPtr exCollide.colInd := checkUniq_sound exCollide_crs (by decide)

theorem exCollide_noLoop : NoSelfLoop exCollide.rowPtr exCollide.colInd := checkNoLoop_sound exCollide_crs (by decide)

example := C12_large_partial (o := ⟨[], [], []⟩) exCollide_valid exCollide_params rfl (Or.inl rfl)

example : sizeLimit exCollide = 2 := by decide

/-- the description applied to a call in which a small coarse cell is treated cell by cell -/
example : SmallCorrectionOf exCollide.rowPtr exCollide.colInd 0 2 [0, 0, 0, 1, 1, 2, 2, 2] [0, 0, 0, 0, 1, 1, 1, 1] := by
  obtain ⟨f, f0, h1, h2, h3⟩ := C56_isotropic (o := ⟨[], [], []⟩) exCollide_valid exCollide_params rfl (Or.inl rfl) exCollide_uniq
    exCollide_noLoop
  have e1 : agglomerateOneLevel exPlatform exCollide ⟨[], [], []⟩ = (⟨[0, 0, 0, 0, 1, 1, 1, 1], [], []⟩, .ok ()) := by
    decide +kernel
  have e2 : agglomerateOneLevel exPlatform { exCollide with correction := false } ⟨[], [], []⟩ =
      (⟨[0, 0, 0, 1, 1, 2, 2, 2], [], []⟩, .ok ()) := by decide +kernel
  rw [e1] at h1
  rw [e2] at h2
  simp only [Prod.mk.injEq, Outs.mk.injEq, and_true] at h1 h2
  rw [← h1, ← h2] at h3
  exact h3

example := C12_large_anisotropic_partial exGiven_valid exGiven_params rfl
  (Or.inr ⟨exGiven_lines, by intro l _ m h; cases h⟩)

example := C56_anisotropic exGiven_valid exGiven_params rfl (checkUniq_sound exGiven_crs (by decide))
  (checkNoLoop_sound exGiven_crs (by decide)) (Or.inr ⟨exGiven_lines, by intro l _ m h; cases h⟩)

end CoMMA
