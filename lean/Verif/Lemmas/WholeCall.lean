import Verif.Spec.WholeCall
import Verif.Props.Complete
import Verif.Props.LineGrowth
import Verif.Props.AnyThreshold
import Verif.Lemmas.AnisoStart
/-! # The description of the outputs of a call: uniqueness and existence -/

set_option linter.unusedSectionVars false

namespace CoMMA

variable {W F : Type} [Num W]

/-! ## Uniqueness of the correction -/

theorem count_one_pos {f : List Nat} {k x y : Nat} (h : f.count k = 1) (hx : f[x]? = some k) (hy : f[y]? = some k) : x = y := by
  rw [count_eq_filter] at h
  have hm : ∀ {z : Nat}, f[z]? = some k → z ∈ (List.range f.length).filter (fun i => decide (f[i]? = some k)) := by
    intro z hz
    rw [List.mem_filter, List.mem_range, decide_eq_true_eq]
    exact ⟨(List.getElem?_eq_some_iff.1 hz).1, hz⟩
  obtain ⟨u, hu⟩ := List.length_eq_one_iff.1 h
  have h1 := hm hx
  have h2 := hm hy
  rw [hu, List.mem_singleton] at h1 h2
  rw [h1, h2]

theorem BestReceiver.unique {rp ci f : List Nat} {m x r s : Nat} (h : BestReceiver rp ci f m x r)
    (h' : BestReceiver rp ci f m x s) : r = s := by
  have h1 := h.2 s h'.1
  have h2 := h'.2 r h.1
  rcases h1 with ⟨_, b⟩ | ⟨_, h1⟩
  · rcases h2 with ⟨a, _⟩ | ⟨a, _⟩
    · exact absurd a b
    · exact absurd (a.2 (by assumption)) b
  · rcases h2 with ⟨a, b⟩ | ⟨_, h2⟩
    · exact absurd ((by assumption : _ ↔ _).2 a) b
    · unfold Closer at h1 h2
      omega

theorem Merges.unique {rp ci : List Nat} {m : Nat} {ks f f1 f2 : List Nat} (h : Merges rp ci m ks f f1)
    (h' : Merges rp ci m ks f f2) : f1 = f2 := by
  induction h with
  | done => cases h'; rfl
  | large hc _ ih =>
    cases h' with
    | large _ h' => exact ih h'
    | alone hc' _ _ _ => omega
    | merged hc' _ _ _ => omega
  | alone hc hx hn _ ih =>
    cases h' with
    | large hc' _ => omega
    | alone _ _ _ h' => exact ih h'
    | merged _ hx' hb _ =>
      obtain rfl := count_one_pos hc hx hx'
      exact absurd hb.1 (hn _)
  | merged hc hx hb _ ih =>
    cases h' with
    | large hc' _ => omega
    | alone _ hx' hn _ =>
      obtain rfl := count_one_pos hc hx hx'
      exact absurd hb.1 (hn _)
    | merged _ hx' hb' h' =>
      obtain rfl := count_one_pos hc hx hx'
      obtain rfl := hb.unique hb'
      exact ih h'

theorem singlesOf_le {f : List Nat} {m N N' : Nat} (h : ∀ k ∈ f, k < N) (hle : N ≤ N') : singlesOf f m N' = singlesOf f m N := by
  obtain ⟨d, rfl⟩ := Nat.exists_eq_add_of_le hle
  induction d with
  | zero => rfl
  | succ d ih =>
    have := ih (by omega)
    unfold singlesOf at this ⊢
    rw [← Nat.add_assoc, List.range_succ, List.filter_append, this]
    have h0 : f.count (N + d) = 0 := by
      rw [List.count_eq_zero]
      intro hk
      have := h _ hk
      omega
    simp [h0]

theorem CorrectionOf.unique {rp ci : List Nat} {m : Nat} {f f1 f2 : List Nat} (h : CorrectionOf rp ci m f f1)
    (h' : CorrectionOf rp ci m f f2) : f1 = f2 := by
  obtain ⟨N, g, a1, a2, rfl⟩ := h
  obtain ⟨N', g', b1, b2, rfl⟩ := h'
  have : singlesOf f m N = singlesOf f m N' := by
    rcases Nat.le_total N N' with hle | hle
    · exact (singlesOf_le a1 hle).symm
    · exact singlesOf_le b1 hle
  rw [this] at a2
  rw [a2.unique b2]

/-! ## Uniqueness of the lines -/

theorem offsets_shift : ∀ {ls ls' : List (List Nat)} {k : Nat}, offsets k ls = offsets k ls' →
    ls.map List.length = ls'.map List.length
  | [], [], _, _ => rfl
  | [], l :: r, _, h => by
    have := congrArg List.length h
    simp [offsets, offsets_length] at this
  | l :: r, [], _, h => by
    have := congrArg List.length h
    simp [offsets, offsets_length] at this
  | l :: r, l' :: r', k, h => by
    simp only [offsets, List.cons.injEq, true_and] at h
    have hl : l.length = l'.length := by
      have := congrArg List.head? h
      cases r <;> cases r' <;> simp [offsets] at this <;> exact this
    rw [hl] at h
    rw [List.map_cons, List.map_cons, hl, offsets_shift h]

theorem Encodes.unique {idx data : List Nat} {ls ls' : List (List Nat)} (h : Encodes idx data ls) (h' : Encodes idx data ls') :
    ls = ls' := by
  rw [List.eq_iff_flatten_eq]
  exact ⟨by rw [← h.2, ← h'.2], offsets_shift (k := 0) (by rw [← h.1, ← h'.1])⟩

theorem Encodes.same {idx data idx' data' : List Nat} {ls : List (List Nat)} (h : Encodes idx data ls)
    (h' : Encodes idx' data' ls) : idx = idx' ∧ data = data' := ⟨h.1.trans h'.1.symm, h.2.trans h'.2.symm⟩

theorem Exports.same {out out' : Outs} {cls : List (List Nat)} (h : Exports out cls) (h' : Exports out' cls) :
    out.linesIdx = out'.linesIdx ∧ out.lines = out'.lines := by
  rcases h with ⟨rfl, h1, h2⟩ | ⟨hne, h⟩
  · rcases h' with ⟨_, h1', h2'⟩ | ⟨hne, _⟩
    · exact ⟨h1.trans h1'.symm, h2.trans h2'.symm⟩
    · exact absurd rfl hne
  · rcases h' with ⟨rfl, _, _⟩ | ⟨_, h'⟩
    · exact absurd rfl hne
    · exact h.same h'

theorem Oriented.unique {nBnd : List Nat} {prio : List W} {line l l' : List Nat} (h : Oriented nBnd prio line l)
    (h' : Oriented nBnd prio line l') : l = l' := by
  obtain ⟨fr, bk, h1, h2, h3⟩ := h
  obtain ⟨fr', bk', h1', h2', h3'⟩ := h'
  rw [h1] at h1'; cases h1'
  rw [h2] at h2'; cases h2'
  rcases h3 with ⟨a, rfl⟩ | ⟨a, rfl⟩ <;> rcases h3' with ⟨b, rfl⟩ | ⟨b, rfl⟩
  · rfl
  · exact absurd a b
  · exact absurd b a
  · rfl

theorem CutsLines.unique {g : Graph W} {a : Args W} {fls : List (List Nat)} {gss gss' : List (List (List Nat))}
    (h : CutsLines g a fls gss) (h' : CutsLines g a fls gss') : gss = gss' := by
  unfold CutsLines at h h'
  induction h generalizing gss' with
  | nil => cases h'; rfl
  | cons hc _ ih =>
    cases h' with
    | cons hc' h' =>
      obtain ⟨l, h1, h2⟩ := hc
      obtain ⟨l', h1', h2'⟩ := hc'
      obtain rfl := h1.unique h1'
      rw [h2.unique h2', ih h']

theorem NumbersLines.unique {gss : List (List (List Nat))} {cls cls' : List (List Nat)} (h : NumbersLines gss cls)
    (h' : NumbersLines gss cls') : cls = cls' := by
  rw [List.eq_iff_flatten_eq]
  exact ⟨h.2.trans h'.2.symm, h.1.trans h'.1.symm⟩

theorem TakesLines.unique (hW : LawfulLt W) {g : Graph W} {a : Args W} {o : Outs} {n : Nat} {fls fls' : List (List Nat)}
    (h : TakesLines g a o n fls) (h' : TakesLines g a o n fls') : fls = fls' := by
  cases h with
  | built hb h1 h2 h3 h4 =>
    cases h' with
    | built _ h1' h2' h3' h4' =>
      obtain rfl := h3.unique hW h3' (fun x => (h1 x).trans (h1' x).symm) h2 h2'
      exact h4.unique hW h4'
    | given hg => have := hg.build; rw [hb.build] at this; cases this
  | given hg =>
    cases h' with
    | built hb _ _ _ _ => have := hg.build; rw [hb.build] at this; cases this
    | given hg' => rw [hg.enc.unique hg'.enc]

theorem TakesLines.on {g : Graph W} {a : Args W} {o : Outs} {n : Nat} {fls : List (List Nat)} (h : TakesLines g a o n fls) :
    ¬ WithoutLines a o := by
  rintro (h1 | ⟨h1, h2⟩)
  · cases h with
    | built hb => have := hb.on; rw [h1] at this; cases this
    | given hb => have := hb.on; rw [h1] at this; cases this
  · cases h with
    | built hb => have := hb.build; rw [h1] at this; cases this
    | @given ls hb =>
      obtain ⟨e1, e2⟩ := hb.enc
      rcases h2 with h2 | h2
      · rw [e1, offsets_length] at h2
        have hne : ls ≠ [] := by rintro rfl; exact hb.data rfl
        have := List.length_pos_iff.2 hne
        omega
      · exact hb.data (e2 ▸ h2)

theorem LinesOfCall.unique (hW : LawfulLt W) {g : Graph W} {a : Args W} {o : Outs} {n : Nat} {gss gss' : List (List (List Nat))}
    {out out' : Outs} (h : LinesOfCall g a o n gss out) (h' : LinesOfCall g a o n gss' out') :
    gss = gss' ∧ out.linesIdx = out'.linesIdx ∧ out.lines = out'.lines := by
  cases h with
  | off h1 h2 h3 h4 =>
    cases h' with
    | off _ h2' h3' h4' => exact ⟨h2.trans h2'.symm, h3.trans h3'.symm, h4.trans h4'.symm⟩
    | on ht => exact absurd h1 ht.on
  | on ht hc hn he =>
    cases h' with
    | off h1 => exact absurd h1 ht.on
    | on ht' hc' hn' he' =>
      obtain rfl := ht.unique hW ht'
      obtain rfl := hc.unique hc'
      obtain rfl := hn.unique hn'
      exact ⟨rfl, he.same he'⟩

theorem MapAfterLines.unique (hW : LawfulLt W) {E : IsoEnv W F} {Grown : NMap Nat → Nat → List Nat → Prop}
    (hG : Determined Grown) {n : Nat} {gss : List (List (List Nat))} {f f' : List Nat} (h : MapAfterLines E Grown n gss f)
    (h' : MapAfterLines E Grown n gss f') : f = f' := by
  obtain ⟨agg0, p0, cs, agg, p, a0, a1, a2, a3, a4⟩ := h
  obtain ⟨agg0', p0', cs', agg', p', b0, b1, b2, b3, b4⟩ := h'
  obtain rfl := a0.trans b0.symm
  have : p0 = p0' := a1.unique hW (by
    intro x hx
    have := (List.mem_filter.1 hx).2
    simpa using this) (C61_start_unique hW) b1
  subst this
  have : cs = cs' := a2.complete_unique hW hG b2 (by rw [a3]; exact fun b hb => (List.mem_replicate.1 hb).2)
    (by rw [b3]; exact fun b hb => (List.mem_replicate.1 hb).2)
  subst this
  exact a4.unique b4

theorem DescribedBy.unique (hW : LawfulLt W) {P : Platform} {a : Args W} {o : Outs} {n : Nat}
    {Grown : IsoEnv W (Feats W) → NMap Nat → Nat → List Nat → Prop} (hG : ∀ E, Determined (Grown E)) {out out' : Outs}
    (h : DescribedBy P a o n Grown (FixedSingles a) out) (h' : DescribedBy P a o n Grown (FixedSingles a) out') : out = out' := by
  obtain ⟨E, gss, f0, a1, a2, a3, a4⟩ := h
  obtain ⟨E', gss', f0', b1, b2, b3, b4⟩ := h'
  obtain rfl := a1.unique b1
  obtain ⟨rfl, h1, h2⟩ := a2.unique hW b2
  obtain rfl := a3.unique hW (hG _) b3
  have h3 : out.fcToCc = out'.fcToCc := by
    unfold FixedSingles at a4 b4
    by_cases hc : a.correction = true
    · rw [if_pos hc] at a4 b4
      exact a4.unique b4
    · rw [if_neg hc] at a4 b4
      rw [a4, b4]
  obtain ⟨_, _, _⟩ := out
  obtain ⟨_, _, _⟩ := out'
  cases h1; cases h2; cases h3; rfl

/-! ## Existence -/

theorem agg_after_lines {n t : Nat} {gs : List (List Nat)} {k : Cont} (h : AnisoMade n (Cont.new n t) gs k) :
    k.agg = (List.range n).map (fun i => decide (i ∈ gs.flatten)) := by
  apply List.ext_getElem?
  intro i
  rw [List.getElem?_map]
  by_cases hi : i ∈ gs.flatten
  · have h1 := h.agg_mem hi
    have : i < n := by rw [← h.cinv.lenA]; exact (List.getElem?_eq_some_iff.1 h1).1
    rw [h1, List.getElem?_range this, Option.map_some, decide_eq_true hi]
  · rw [h.agg i hi]
    show (List.replicate n false)[i]? = _
    rw [List.getElem?_replicate]
    by_cases hn : i < n
    · rw [List.getElem?_range hn, if_pos hn, Option.map_some, decide_eq_false hi]
    · rw [if_neg hn, List.getElem?_eq_none (by simpa using hn)]
      rfl

theorem numbers_all {n t : Nat} {gs : List (List Nat)} {k k1 : Cont} (h : AnisoMade n (Cont.new n t) gs k) (hci : CInv n k1)
    (hold : ∀ j, j < k.counter → k1.ccs.find? j = k.ccs.find? j) {cs : List (Nat × NSet)}
    (hget : ∀ (i j : Nat), k1.fc2cc[i]? = some (some (k.counter + j)) ↔ ∃ e, cs[j]? = some e ∧ i ∈ e.2) {f : List Nat}
    (hl : f.length = n) (hf : ∀ (i : Nat) j, f[i]? = some j ↔ k1.fc2cc[i]? = some (some j)) :
    Numbers n (gs.map NSet.ofList ++ cs.map Prod.snd) f := by
  refine ⟨hl, fun i j => ?_⟩
  rw [hf]
  have hcnt : k.counter = gs.length := by
    have := h.counter
    rw [show (Cont.new n t).counter = 0 from rfl] at this
    omega
  by_cases hj : j < k.counter
  · have hj' : j < gs.length := by omega
    have hn := h.new j _ (List.getElem?_eq_getElem hj')
    rw [show (Cont.new n t).counter = 0 from rfl, Nat.zero_add, ← hold j hj] at hn
    rw [← hci.part j _ hn i, List.getElem?_append_left (by simpa using hj'), List.getElem?_map, List.getElem?_eq_getElem hj']
    simp [CC.new]
  · obtain ⟨d, rfl⟩ := Nat.exists_eq_add_of_le (Nat.le_of_not_lt hj)
    rw [hget, List.getElem?_append_right (by rw [List.length_map]; omega), List.length_map, hcnt, Nat.add_sub_cancel_left,
      List.getElem?_map]
    constructor
    · rintro ⟨c, hc, hi⟩
      exact ⟨c.2, by rw [hc]; rfl, hi⟩
    · rintro ⟨s, hs, hi⟩
      obtain ⟨c, hc, rfl⟩ := Option.map_eq_some_iff.1 hs
      exact ⟨c, hc, hi⟩

/-- the isotropic phase of a call, after lines -/
theorem start_map {P : Platform} {a : Args W} {o : Outs} {n : Nat} (hm : ValidMesh a n) (hp : ValidParams P a)
    (hW : LawfulLt W) (hu : UniqueRows a.rowPtr a.colInd) (hl : NoSelfLoop a.rowPtr a.colInd) {c : PoolCfg W} {k : Cont}
    {p : Pool} {idx lines : List Nat} (h : Start P a o c n k p idx lines) {t : Nat} {gss : List (List (List Nat))}
    (hd : AnisoMade n (Cont.new n t) gss.flatten k)
    (hpool : PoolAfterLines c k.agg ((gss.flatten.flatten.flatMap (rowOf a.rowPtr a.colInd)).filter
      (fun x => decide (k.agg[x]? = some false))) p) :
    ∃ f0, agglomerateOneLevel P { a with correction := false } o = (⟨f0, idx, lines⟩, .ok ()) ∧
      MapAfterLines (isoEnvOf P a c) (GrownGreedily (isoEnvOf P a c)) n gss f0 := by
  have hn : (isoEnvOf P a c).g.nbC = n := graphOf_nbC hm
  obtain ⟨k1, p1, hg⟩ := grown_ok hm hp h
  have hci : CInv n k1 := by have := hg.inv.cinv; rwa [hn] at this
  have hg' : Grown P a.uncorrected o n k c p p1 k1 := ⟨hg.eq, hg.inv, hg.all⟩
  obtain ⟨f0, g1, g2, g3, _⟩ := run_plain hp.uncorrected h.uncorrected hm.uncorrected hg' rfl
  obtain ⟨cs, ht⟩ := isoRun_trace (isoInput hm hp h.made) hW hu hl (by rw [hn]; exact h.cinv)
    (by rw [hn]; exact h.pool) hg.eq
  have hagg := agg_after_lines hd
  refine ⟨f0, g1, k.agg, p, cs, k1.agg, p1, hagg, hpool, ht.trace, ?_, numbers_all hd hci hg.inv.old ht.get g2 g3⟩
  rw [List.eq_replicate_iff]
  have hc : k1.agg.count true = k1.agg.length := by rw [← hci.nbAgg, hci.lenA, hg.all]
  rw [List.count_eq_length] at hc
  exact ⟨hci.lenA, fun b hb => (hc b hb).symm⟩

theorem MapAfterLines.shaped {P : Platform} {a : Args W} {n : Nat} (hm : ValidMesh a n) (hp : ValidParams P a)
    (hF : FeatInput (graphOf a) a.aspect) {c : PoolCfg W} (hc : PoolMade P a c) {gss : List (List (List Nat))} {f : List Nat}
    (h : MapAfterLines (isoEnvOf P a c) (GrownGreedily (isoEnvOf P a c)) n gss f) :
    MapAfterLines (isoEnvOf P a c) (ShapedSeq (isoEnvOf P a c) a.aspect) n gss f := by
  obtain ⟨agg0, p0, cs, agg, p, a0, a1, a2, a3, a4⟩ := h
  have hn : (isoEnvOf P a c).g.nbC = n := graphOf_nbC hm
  have hE := isoInput hm hp hc
  refine ⟨agg0, p0, cs, agg, p, a0, a1, ?_, a3, a4⟩
  refine a2.mono (by have := hE.minCard; omega) (n := n) (by rw [a3]; simp) ?_
  rintro d hi xs seed hh hs ⟨ft, hg⟩
  exact (greedy_shaped (E := isoEnvOf P a c) (kind := a.aspect) hF hp.aspect rfl hg hh (by rw [hn]; exact hs)).1

/-- a call described up to correction -/
structure Described (P : Platform) (a : Args W) (o : Outs) (n : Nat) (c : PoolCfg W) (k : Cont) (p : Pool) (idx lines : List Nat)
    (gss : List (List (List Nat))) : Prop where
  start : Start P a o c n k p idx lines
  made : AnisoMade n (Cont.new n (effThresh a).toNat) gss.flatten k
  counter : k.counter = gss.flatten.length
  rows : ∀ f, LinesOfCall (graphOf a) a o n gss ⟨f, idx, lines⟩
  map : ∃ f0, agglomerateOneLevel P { a with correction := false } o = (⟨f0, idx, lines⟩, .ok ()) ∧
    MapAfterLines (isoEnvOf P a c) (GrownGreedily (isoEnvOf P a c)) n gss f0

theorem forall₂_lengths {α β : Type} {R : α → β → Prop} {gss : List (List α)} {cls : List (List β)}
    (h : List.Forall₂ (List.Forall₂ R) gss cls) : cls.map List.length = gss.map List.length := by
  induction h with
  | nil => rfl
  | cons h1 _ ih => rw [List.map_cons, List.map_cons, h1.length_eq, ih]

theorem described_on {P : Platform} {a : Args W} {o : Outs} {n : Nat} (hm : ValidMesh a n) (hp : ValidParams P a)
    (hW : LawfulLt W) (hu : UniqueRows a.rowPtr a.colInd) (hl : NoSelfLoop a.rowPtr a.colInd) {fls : List (List Nat)}
    (ht : TakesLines (graphOf a) a o n fls) {c : PoolCfg W} {k : Cont} {p : Pool} {cls : List (List Nat)}
    {gss : List (List (List Nat))} (h : AnisoStart P a o n fls c k p cls gss) :
    Described P a o n c k p (exportLines cls).1 (exportLines cls).2 gss := by
  have hd := h.done.made
  rw [graphOf_nbC hm] at hd
  have hcnt : k.counter = gss.flatten.length := by
    have := hd.counter
    rw [show (Cont.new n (effThresh a).toNat).counter = 0 from rfl] at this
    simp only at this
    omega
  refine ⟨h.start, hd, hcnt, ?_, start_map hm hp hW hu hl h.start hd (h.done.start hW)⟩
  intro f
  refine .on ht ?_ (cls := cls) ⟨?_, ?_⟩ (exports_exportLines f cls)
  · have := h.done.cut
    rw [h.start.made.prio] at this
    refine this.imp ?_
    rintro line groups ⟨fwd, h1, h2⟩
    exact ⟨_, isForward_oriented h1, by have := h2.exact; rwa [List.drop_zero] at this⟩
  · exact forall₂_lengths h.done.listed
  · have := h.done.all
    rw [show (Cont.new n (effThresh a).toNat).counter = 0 from rfl] at this
    simp only at this
    rw [this, List.range_eq_range']

theorem described_off {P : Platform} {a : Args W} {o : Outs} {n : Nat} (hm : ValidMesh a n) (hp : ValidParams P a)
    (hW : LawfulLt W) (hu : UniqueRows a.rowPtr a.colInd) (hl : NoSelfLoop a.rowPtr a.colInd) (hoff : WithoutLines a o) :
    ∃ c k p, Described P a o n c k p o.linesIdx o.lines [] := by
  have hoff' := withoutLines_iff.1 hoff
  obtain ⟨c, k, p, h, rfl⟩ := start_iso hm hp hoff
  have hE := isoInput hm hp h.made
  have hpi : Pool.new.initialize c = .ok p := by
    have := h.eq
    unfold anisoPhase at this
    rw [hoff', graphOf_nbC hm] at this
    simp only [Bool.false_eq_true, if_false] at this
    obtain ⟨p', h1, h2⟩ := bind_ok_iff.1 this
    cases h2; exact h1
  exact ⟨c, _, p, h, AnisoMade.refl (CInv_new _ _), rfl, fun f => .off hoff rfl rfl rfl,
    start_map hm hp hW hu hl h (t := (effThresh a).toNat) (gss := []) (AnisoMade.refl (CInv_new _ _))
      (.fresh rfl (poolStarted hW hE.pool hE.prio hpi))⟩

theorem described {P : Platform} {a : Args W} {o : Outs} {n : Nat} (hm : ValidMesh a n) (hp : ValidParams P a)
    (hW : LawfulLt W) (hu : UniqueRows a.rowPtr a.colInd) (hl : NoSelfLoop a.rowPtr a.colInd)
    (hmode : ValidMode (graphOf a) a o n) :
    ∃ c k p idx lines gss, Described P a o n c k p idx lines gss := by
  obtain ⟨hmode, hfit⟩ := hmode
  rcases hmode with h | ⟨hb, hnn⟩ | ⟨ls, hg⟩
  · obtain ⟨c, k, p, h⟩ := described_off hm hp hW hu hl h
    exact ⟨c, k, p, _, _, _, h⟩
  · obtain ⟨fls, seeds, h1, h2, h3, h4, h5⟩ := C48_call hW (P := P) (o := o) hm hb hl hnn
    have ht : TakesLines (graphOf a) a o n fls := .built hb h2 h3 h4 h5
    obtain ⟨c, k, p, cls, gss, h⟩ := built_start hm hp hb h1 (hfit _ ht)
    exact ⟨c, k, p, _, _, _, described_on hm hp hW hu hl ht h⟩
  · have ht : TakesLines (graphOf a) a o n _ := .given hg
    obtain ⟨c, k, p, cls, gss, h⟩ := given_start hm hp hg (hfit _ ht)
    exact ⟨c, k, p, _, _, _, described_on hm hp hW hu hl ht h⟩

theorem uncorrected_self {a : Args W} (h : a.correction = false) : { a with correction := false } = a := by
  cases a; cases h; rfl

end CoMMA
