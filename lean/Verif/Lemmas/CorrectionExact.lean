import Verif.Spec.Correction
import Verif.Lemmas.Outcome
/-! # Correction with threshold 1, exactly -/

set_option linter.unusedSectionVars false

namespace CoMMA

variable {W : Type} [Num W]

/-- `f` is the map of the container `c` -/
structure Views (n : Nat) (f : List Nat) (c : Cont) : Prop where
  len : f.length = n
  get : ∀ (i : Nat) j, f[i]? = some j ↔ c.fc2cc[i]? = some (some j)

theorem IsCompactness.unique {rp ci : List Nat} {s : NSet} {a b : Nat} (ha : IsCompactness rp ci s a)
    (hb : IsCompactness rp ci s b) : a = b := by
  by_cases h : s.card ≤ 1
  · rw [ha.1 h, hb.1 h]
  · obtain ⟨⟨x, hx, hxa⟩, h1⟩ := ha.2 (by omega)
    obtain ⟨⟨y, hy, hyb⟩, h2⟩ := hb.2 (by omega)
    have := h1 y hy
    have := h2 x hx
    omega

theorem mem_fcsOf {f : List Nat} {k i : Nat} : i ∈ fcsOf f k ↔ f[i]? = some k := by
  unfold fcsOf
  rw [NSet.mem_ofList, List.mem_filter, List.mem_range, decide_eq_true_eq]
  exact ⟨fun h => h.2, fun h => ⟨(List.getElem?_eq_some_iff.1 h).1, h⟩⟩

/-- shared faces, seen from the cell and from the coarse cell -/
theorem facesWith_eq {n : Nat} {rp ci : List Nat} (hv : ValidCRS n rp ci) (hsym : SymmetricCRS rp ci) (hu : UniqueRows rp ci)
    {f : List Nat} (hl : f.length = n) {x : Nat} (hx : x < n) (r : Nat) :
    facesWith rp ci x (fcsOf f r) = facesTo rp ci f x r := by
  have hnd : (rowOf rp ci x).Nodup := by rw [rowOf_eq hv hx]; exact UniqueRows.nodup hv hu hx
  have hcell : ∀ i ∈ fcsOf f r, i < n := by
    intro i hi
    rw [← hl]
    exact (List.getElem?_eq_some_iff.1 (mem_fcsOf.1 hi)).1
  unfold facesTo
  have h1 : (rowOf rp ci x).countP (fun y => decide (f[y]? = some r)) = (rowOf rp ci x).countP (fun y => (fcsOf f r).has y) := by
    refine List.countP_congr ?_
    intro y _
    rw [decide_eq_true_eq, NSet.has_iff, mem_fcsOf]
  rw [h1, countP_has_eq hnd]
  unfold facesWith nbShared
  have : ∀ l : List Nat, (∀ i ∈ l, i < n) →
      (l.map (fun i => (rowOf rp ci i).count x)).sum = l.countP (fun y => (rowOf rp ci x).contains y) := by
    intro l
    induction l with
    | nil => simp
    | cons y l ih =>
      intro hlt
      have hy := hlt y (by simp)
      rw [List.map_cons, List.sum_cons, ih (fun i hi => hlt i (by simp [hi])), List.countP_cons]
      have hny : (rowOf rp ci y).Nodup := by rw [rowOf_eq hv hy]; exact UniqueRows.nodup hv hu hy
      have hiff : x ∈ rowOf rp ci y ↔ y ∈ rowOf rp ci x := by
        rw [rowOf_eq hv hx, rowOf_eq hv hy, hv.mem_rowL hx, hv.mem_rowL hy]
        exact ⟨hsym _ _, hsym _ _⟩
      by_cases hm : x ∈ rowOf rp ci y
      · rw [List.count_eq_one_of_mem hny hm]
        simp [hiff.1 hm, Nat.add_comm]
      · rw [List.count_eq_zero_of_not_mem hm]
        have hno : y ∉ rowOf rp ci x := fun h => hm (hiff.2 h)
        simp [hno]
  exact this _ hcell

/-- setting of the exact description -/
structure ExactEnv (g : Graph W) (c0 : Cont) (m : Nat) : Prop where
  crs : ValidCRS g.nbC g.rowPtr g.colInd
  sym : SymmetricCRS g.rowPtr g.colInd
  uniq : UniqueRows g.rowPtr g.colInd
  noLoop : NoSelfLoop g.rowPtr g.colInd
  cinv : CInv g.nbC c0
  thresh : c0.thresh = 1
  isoIff : ∀ k cc, c0.ccs.find? k = some cc → (cc.iso = true ↔ m ≤ k)

theorem Views.fcs {g : Graph W} {Q : NSet → Nat → Prop} {c0 c : Cont} {pre : List Nat} {rem : NSet}
    (h : KInv g Q c0 pre c rem) {f : List Nat} (hf : Views g.nbC f c) {k : Nat} {cc : CC} (hk : c.ccs.find? k = some cc) :
    cc.fcs = fcsOf f k := by
  apply NSet.ext
  intro i
  rw [h.part k cc hk, mem_fcsOf, hf.get]

theorem Views.count {g : Graph W} {Q : NSet → Nat → Prop} {c0 c : Cont} {pre : List Nat} {rem : NSet}
    (h : KInv g Q c0 pre c rem) {f : List Nat} (hf : Views g.nbC f c) {k : Nat} {cc : CC} (hk : c.ccs.find? k = some cc) :
    f.count k = cc.card := by
  rw [(h.card k cc hk).1]
  exact count_eq_card (fun i => by rw [h.part k cc hk, hf.get])

theorem KInv.iso_iff {g : Graph W} {Q : NSet → Nat → Prop} {c0 c : Cont} {pre : List Nat} {rem : NSet} {m : Nat}
    (hE : ExactEnv g c0 m) (h : KInv g Q c0 pre c rem) {k : Nat} {cc : CC} (hk : c.ccs.find? k = some cc) :
    cc.iso = true ↔ m ≤ k := by
  obtain ⟨cc0, h1, h2⟩ := h.isoK k cc hk
  rw [h2, hE.isoIff k cc0 h1]

/-- what the record of a neighbour says -/
theorem nbFeat_meaning {g : Graph W} {c0 c : Cont} {pre : List Nat} {rem : NSet} {m : Nat} (hE : ExactEnv g c0 m)
    (h : KInv g (Sound g) c0 pre c rem) {f : List Nat} (hf : Views g.nbC f c) {x : Nat} (hx : x < g.nbC) {b : NbRec}
    (hb : NbFeat g c.ccs x b) :
    b.card = f.count b.id ∧ b.shared = facesTo g.rowPtr g.colInd f x b.id ∧
      (b.better = true ↔ Gains g.rowPtr g.colInd f x b.id) := by
  obtain ⟨cc, h1, h2, h3, h4, h5, h6⟩ := hb
  have hfc := hf.fcs h h1
  refine ⟨by rw [h3, hf.count h h1], by rw [h4, hfc, facesWith_eq hE.crs hE.sym hE.uniq hf.len hx], ?_⟩
  have hlt : ∀ z ∈ cc.fcs.insert x, z < g.nbC := by
    intro z hz
    rcases NSet.mem_insert.1 hz with rfl | hz
    · exact hx
    · exact h.lt h1 z hz
  have c1 : IsCompactness g.rowPtr g.colInd (fcsOf f b.id) cc.compact := by
    rw [← hfc]; exact (h.good _ cc h1 h2).2 hE.uniq hE.noLoop
  have c2 : IsCompactness g.rowPtr g.colInd ((fcsOf f b.id).insert x) b.compact := by
    rw [← hfc]; exact (minCompactness_ok hE.crs hlt).elim h5 hE.uniq
  rw [h6]
  constructor
  · exact fun hl => ⟨_, _, c1, c2, hl⟩
  · rintro ⟨u, v, g1, g2, hl⟩
    rw [c1.unique g1, c2.unique g2]; exact hl

/-- one treated cell -/
def OneMerge (rp ci : List Nat) (m k : Nat) (f f' : List Nat) : Prop :=
  (1 < f.count k ∧ f' = f) ∨
  ∃ x, f.count k = 1 ∧ f[x]? = some k ∧
    ((∀ r, ¬ Receiver rp ci f m x r) ∧ f' = f ∨ ∃ r, BestReceiver rp ci f m x r ∧ f' = f.set x r)

theorem correctStep_exact {g : Graph W} {c0 : Cont} {m : Nat} (hE : ExactEnv g c0 m) (hh : Hash) {pre : List Nat} {c : Cont}
    {rem : NSet} (h : KInv g (Sound g) c0 pre c rem) {f : List Nat} (hf : Views g.nbC f c) {old : Nat}
    (hold : old ∈ c0.singular) (hnew : old ∉ pre) :
    Ok (correctStep g hh (c, rem) old) (fun r => ∃ f', Views g.nbC f' r.1 ∧ OneMerge g.rowPtr g.colInd m old f f') := by
  have hv := hE.crs
  obtain ⟨occ0, hocc0, hoi0, _⟩ := (hE.cinv.sing old).1 hold
  have hlt : old < c0.counter := (hE.cinv.keys old).1 (NMap.mem_keys.2 ⟨_, hocc0⟩)
  have hmem : old ∈ c.ccs.keys := (h.keys old).2 ⟨hlt, fun hr => hnew (h.remIn old hr)⟩
  obtain ⟨occ, hocc⟩ := NMap.mem_keys.1 hmem
  have hcnt := hf.count h hocc
  have hpos := (h.card old occ hocc).2
  unfold correctStep
  simp only
  rw [NMap.at_eq.2 hocc, ok_bind, h.thresh, hE.thresh]
  by_cases hcard : occ.card ≤ 1
  · rw [if_pos hcard]
    have hc1 : occ.fcs.card = 1 := by
      have := h.card old occ hocc
      omega
    obtain ⟨x, hx⟩ := NSet.single_of_card hc1
    have hof : ∀ i, i ∈ occ.fcs ↔ i = x := by
      intro i; rw [← NSet.mem_elems, hx]; simp
    have hxn : x < g.nbC := h.lt hocc x ((hof x).2 rfl)
    have hfx : f[x]? = some old := (hf.get x old).2 ((h.part old occ hocc x).1 ((hof x).2 rfl))
    have hone : f.count old = 1 := by omega
    unfold neighsByFc
    have hord : hh.ord 5 occ.fcs.elems = [x] := by
      have := hh.perm 5 occ.fcs.elems
      rw [hx] at this ⊢
      exact List.perm_singleton.1 this
    rw [hord]
    simp only [List.mapM_cons, List.mapM_nil]
    obtain ⟨s, hs1, hs2⟩ := (neighsCC_ok hv h.total hxn old).eq
    rw [hs1]
    simp only [ok_bind, pure_bind]
    unfold tryWhole
    rw [if_neg (by omega)]
    simp only [pure_bind]
    unfold tryCells
    simp only [List.foldlM_cons, List.foldlM_nil]
    have hnn : ∀ k ∈ s, ∃ cc, c.ccs.find? k = some cc ∧ ∀ x ∈ cc.fcs, x < g.nbC := by
      intro k hk
      obtain ⟨_, j, _, hj⟩ := (hs2 k).1 hk
      obtain ⟨cc, hcc⟩ := NMap.mem_keys.1 (h.range j k hj)
      exact ⟨cc, hcc, h.lt hcc⟩
    have hrec : ∀ r, Receiver g.rowPtr g.colInd f m x r ↔ r ∈ s ∧ ∃ cc, c.ccs.find? r = some cc ∧ cc.iso = true := by
      intro r
      unfold Receiver
      rw [hfx, hs2 r]
      constructor
      · rintro ⟨h1, h2, y, h3, h4⟩
        have h5 := (hf.get y r).1 h4
        obtain ⟨cc, hcc⟩ := NMap.mem_keys.1 (h.range y r h5)
        exact ⟨⟨fun e => h1 (by rw [e]), y, h3, h5⟩, cc, hcc, (h.iso_iff hE hcc).2 h2⟩
      · rintro ⟨⟨h1, y, h3, h4⟩, cc, hcc, hi⟩
        exact ⟨fun e => h1 (by cases e; rfl), (h.iso_iff hE hcc).1 hi, y, h3, (hf.get y r).2 h4⟩
    have hskip : (∀ k ∈ s, ∀ cc, c.ccs.find? k = some cc → cc.iso = false) →
        ∃ f', Views g.nbC f' c ∧ OneMerge g.rowPtr g.colInd m old f f' := by
      intro hall
      refine ⟨f, hf, Or.inr ⟨x, hone, hfx, Or.inl ⟨?_, rfl⟩⟩⟩
      intro r hr
      obtain ⟨h1, cc, h2, h3⟩ := (hrec r).1 hr
      rw [hall r h1 cc h2] at h3; cases h3
    by_cases hs0 : s.card = 0
    · rw [if_pos hs0]
      simp only [pure_bind, Ok_pure]
      refine hskip ?_
      intro k hk
      have := NSet.card_pos_iff.2 ⟨k, hk⟩
      omega
    · rw [if_neg hs0]
      obtain ⟨o, ho, ho1, ho2⟩ := (selectCC_ok hv hxn hnn).eq
      rw [ho]
      simp only [ok_bind]
      cases o with
      | none =>
        simp only [pure_bind, Ok_pure]
        exact hskip (ho1 rfl)
      | some r =>
        obtain ⟨b, hb1, hb2, hb3, hbf, hbest⟩ := ho2 r.1 r.2 rfl
        have hbf' := hbf
        obtain ⟨rcc, hr1, hr2, _⟩ := hbf'
        obtain ⟨m1, m2, m3⟩ := nbFeat_meaning hE h hf hxn hbf
        rw [hb1] at hb3 hr1 m1 m2 m3
        have hxl : x < c.fc2cc.length := by rw [h.len]; exact hxn
        simp only [moveCell]
        rw [wr_of_lt hxl, ok_bind, NMap.at_eq.2 hr1]
        simp only [ok_bind, pure_bind, Ok_pure, if_true, dropCC]
        refine ⟨f.set x r.1, ⟨by simp [hf.len], ?_⟩, Or.inr ⟨x, hone, hfx, Or.inr ⟨r.1, ⟨(hrec r.1).2 ⟨hb3, rcc, hr1, hr2⟩, ?_⟩, rfl⟩⟩⟩
        · intro i j
          have hxf : x < f.length := by rw [hf.len]; exact hxn
          rw [List.getElem?_set, List.getElem?_set]
          by_cases hi : x = i
          · rw [if_pos hi, if_pos hi, if_pos hxf, if_pos hxl]; simp
          · rw [if_neg hi, if_neg hi]; exact hf.get i j
        · intro s' hs'
          obtain ⟨h1, cc, h2, h3⟩ := (hrec s').1 hs'
          obtain ⟨kk, hkk, _⟩ := (minCompactness_ok hv (s := cc.fcs.insert x) (by
            intro z hz
            rcases NSet.mem_insert.1 hz with rfl | hz
            · exact hxn
            · exact h.lt h2 z hz)).eq
          have hfeat : NbFeat g c.ccs x ⟨s', cc.card, facesWith g.rowPtr g.colInd x cc.fcs, kk, decide (cc.compact < kk)⟩ :=
            ⟨cc, h2, h3, rfl, rfl, hkk, by simp⟩
          obtain ⟨n1, n2, n3⟩ := nbFeat_meaning hE h hf hxn hfeat
          have := hbest _ h1 hfeat
          simp only at n1 n2 n3 this
          rcases this with ⟨e1, e2⟩ | ⟨e1, e2⟩
          · left
            refine ⟨m3.1 e1, fun hg => ?_⟩
            rw [n3.2 hg] at e2; cases e2
          · right
            refine ⟨by rw [← m3, ← n3, e1], ?_⟩
            unfold Pref at e2
            simp only at e2
            unfold Closer
            rw [← m1, ← m2, ← n1, ← n2, ← hb1]
            exact e2
  · rw [if_neg hcard, Ok_pure]
    exact ⟨f, hf, Or.inl ⟨by omega, rfl⟩⟩

theorem correctLoop_exact {g : Graph W} {c0 : Cont} {m : Nat} (hE : ExactEnv g c0 m) (hh : Hash) :
    ∀ (post pre : List Nat), c0.singular = pre ++ post → ∀ (c : Cont) (rem : NSet), KInv g (Sound g) c0 pre c rem →
      ∀ f, Views g.nbC f c →
      Ok (post.foldlM (correctStep g hh) (c, rem)) (fun r => KInv g (Sound g) c0 c0.singular r.1 r.2 ∧
        ∃ f', Views g.nbC f' r.1 ∧ Merges g.rowPtr g.colInd m post f f') := by
  intro post
  induction post with
  | nil =>
    intro pre hsp c rem h f hf
    rw [List.foldlM_nil, Ok_pure]
    rw [List.append_nil] at hsp
    rw [hsp]
    exact ⟨h, f, hf, .done⟩
  | cons k ks ih =>
    intro pre hsp c rem h f hf
    rw [List.foldlM_cons]
    have hk : k ∈ c0.singular := by rw [hsp]; simp
    have hkp : k ∉ pre := by
      intro hp
      have hs := hE.cinv.singSorted
      rw [hsp, List.pairwise_append] at hs
      exact absurd (hs.2.2 k hp k (by simp)) (Nat.lt_irrefl k)
    refine Ok.bind ((correctStep_inv hE.crs hh (absorbs_sound hE.crs hE.sym) hE.cinv hE.thresh h hk hkp).and
      (correctStep_exact hE hh h hf hk hkp)) ?_
    rintro ⟨c', rem'⟩ ⟨h', f', hf', hm⟩
    refine Ok.mono (ih (pre ++ [k]) (by rw [hsp]; simp) c' rem' h' f' hf') ?_
    rintro r ⟨h1, f2, h2, h3⟩
    refine ⟨h1, f2, h2, ?_⟩
    rcases hm with ⟨e1, rfl⟩ | ⟨x, e1, e2, ⟨e3, rfl⟩ | ⟨r, e3, rfl⟩⟩
    · exact .large e1 h3
    · exact .alone e1 e2 e3 h3
    · exact .merged e1 e2 e3 h3

theorem rank_eq {f : List Nat} {φ : Nat → Nat} {N : Nat} (hmono : ∀ a b, a ∈ f → b ∈ f → a < b → φ a < φ b)
    (hlt : ∀ a ∈ f, φ a < N) (honto : ∀ t, t < N → ∃ j ∈ f, φ j = t) {k : Nat} (hk : k ∈ f) :
    ((List.range k).filter (fun j => decide (j ∈ f))).length = φ k := by
  have hinj : ∀ a b, a ∈ f → b ∈ f → φ a = φ b → a = b := by
    intro a b ha hb hab
    rcases Nat.lt_trichotomy a b with hl | hl | hl
    · have := hmono a b ha hb hl; omega
    · exact hl
    · have := hmono b a hb ha hl; omega
  have hp : (((List.range k).filter (fun j => decide (j ∈ f))).map φ).Perm (List.range (φ k)) := by
    rw [List.perm_ext_iff_of_nodup _ List.nodup_range]
    · intro t
      simp only [List.mem_map, List.mem_filter, List.mem_range, decide_eq_true_eq]
      constructor
      · rintro ⟨j, ⟨h1, h2⟩, rfl⟩
        exact hmono j k h2 hk h1
      · intro ht
        have := hlt k hk
        obtain ⟨j, hj, rfl⟩ := honto t (by omega)
        refine ⟨j, ⟨?_, hj⟩, rfl⟩
        rcases Nat.lt_trichotomy j k with hl | hl | hl
        · exact hl
        · subst hl; omega
        · have := hmono k j hk hj hl; omega
    · refine List.Nodup.map_on ?_ (List.nodup_range.filter _)
      intro a ha b hb hab
      simp only [List.mem_filter, List.mem_range, decide_eq_true_eq] at ha hb
      exact hinj a b ha.2 hb.2 hab
  have := hp.length_eq
  simpa using this

theorem renumbered_eq {f : List Nat} {φ : Nat → Nat} {N : Nat} (hmono : ∀ a b, a ∈ f → b ∈ f → a < b → φ a < φ b)
    (hlt : ∀ a ∈ f, φ a < N) (honto : ∀ t, t < N → ∃ j ∈ f, φ j = t) : renumbered f = f.map φ := by
  unfold renumbered
  refine List.map_congr_left ?_
  intro k hk
  exact rank_eq hmono hlt honto hk

theorem KInv.used {g : Graph W} {Q : NSet → Nat → Prop} {c0 c : Cont} {pre : List Nat} {rem : NSet}
    (h : KInv g Q c0 pre c rem) {f : List Nat} (hf : Views g.nbC f c) (k : Nat) : k ∈ f ↔ k ∈ c.ccs.keys := by
  constructor
  · intro hk
    obtain ⟨i, hi⟩ := List.mem_iff_getElem?.1 hk
    exact h.range i k ((hf.get i k).1 hi)
  · intro hk
    obtain ⟨cc, hcc⟩ := NMap.mem_keys.1 hk
    have := h.card k cc hcc
    obtain ⟨x, hx⟩ := NSet.card_pos_iff.1 (show 0 < cc.fcs.card by omega)
    exact List.mem_iff_getElem?.2 ⟨x, (hf.get x k).2 ((h.part k cc hcc x).1 hx)⟩

theorem Renum.views {g : Graph W} {Q : NSet → Nat → Prop} {c0 c c' : Cont} {pre : List Nat} {rem : NSet}
    (h : KInv g Q c0 pre c rem) {f : List Nat} (hf : Views g.nbC f c) {N : Nat} {φ : Nat → Nat} (hr : Renum c c' N φ) :
    Views g.nbC (renumbered f) c' := by
  have he : renumbered f = f.map φ := by
    refine renumbered_eq (N := N) ?_ ?_ ?_
    · intro a b ha hb hab
      exact hr.mono a b ((h.used hf a).1 ha) ((h.used hf b).1 hb) hab
    · intro a ha
      obtain ⟨cc, hcc⟩ := NMap.mem_keys.1 ((h.used hf a).1 ha)
      exact (hr.keys _).1 (NMap.mem_keys.2 ⟨cc, hr.ccs a cc hcc⟩)
    · intro t ht
      obtain ⟨j, hj, hjt⟩ := hr.onto t ht
      exact ⟨j, (h.used hf j).2 hj, hjt⟩
  rw [he]
  refine ⟨by simp [hf.len], ?_⟩
  intro i j
  rw [List.getElem?_map]
  constructor
  · intro hi
    obtain ⟨k, hk, rfl⟩ := Option.map_eq_some_iff.1 hi
    exact hr.map i k ((hf.get i k).1 hk)
  · intro hi
    have hin : i < g.nbC := by
      rw [← h.len, ← hr.len]; exact (List.getElem?_eq_some_iff.1 hi).1
    obtain ⟨k, hk⟩ := h.total i hin
    have := hr.map i k hk
    rw [hi] at this
    cases this
    rw [(hf.get i k).2 hk]; rfl

theorem singular_eq {g : Graph W} {c0 : Cont} {m : Nat} (hE : ExactEnv g c0 m) {f : List Nat} (hf : Views g.nbC f c0) :
    c0.singular = singlesOf f m c0.counter := by
  refine sorted_ext hE.cinv.singSorted ?_ ?_
  · unfold singlesOf
    exact List.pairwise_lt_range.filter _
  · intro k
    unfold singlesOf
    rw [hE.cinv.sing, List.mem_filter, List.mem_range]
    simp only [Bool.and_eq_true, decide_eq_true_eq]
    have hcount : ∀ cc, c0.ccs.find? k = some cc → f.count k = cc.card := by
      intro cc hcc
      rw [(hE.cinv.card k cc hcc).1]
      exact count_eq_card (fun i => by rw [hE.cinv.part k cc hcc, hf.get])
    constructor
    · rintro ⟨cc, h1, h2, h3⟩
      have := hE.cinv.card k cc h1
      rw [hE.thresh] at h3
      exact ⟨(hE.cinv.keys k).1 (NMap.mem_keys.2 ⟨cc, h1⟩), (hE.isoIff k cc h1).1 h2, by rw [hcount cc h1]; omega⟩
    · rintro ⟨h1, h2, h3⟩
      obtain ⟨cc, hcc⟩ := hE.cinv.keys' h1
      exact ⟨cc, hcc, (hE.isoIff k cc hcc).2 h2, by rw [hE.thresh, ← hcount cc hcc, h3]; exact Nat.le_refl 1⟩

/-- correction with threshold 1 is the one specified -/
theorem correct_exact {g : Graph W} {c : Cont} {m : Nat} (hE : ExactEnv g c m) (hh : Hash)
    (hgood : ∀ k cc, c.ccs.find? k = some cc → cc.iso = true → Sound g cc.fcs cc.compact)
    (hcomp : ∀ i : Nat, i < g.nbC → ∃ k, c.fc2cc[i]? = some (some k)) {f : List Nat} (hf : Views g.nbC f c) :
    Ok (c.correct g hh) (fun c' => ∃ f', Views g.nbC f' c' ∧ CorrectionOf g.rowPtr g.colInd m f f') := by
  unfold Cont.correct
  refine Ok.bind (correctLoop_exact hE hh c.singular [] rfl c NSet.empty (KInv_init hE.cinv hgood hcomp) f hf) ?_
  rintro ⟨c1, rem⟩ ⟨h, f1, hf1, hmer⟩
  simp only at h hf1 ⊢
  rw [singular_eq hE hf] at hmer
  have hres : ∀ c', Views g.nbC (renumbered f1) c' → ∃ f', Views g.nbC f' c' ∧ CorrectionOf g.rowPtr g.colInd m f f' := by
    intro c' hc'
    refine ⟨_, hc', c.counter, f1, ?_, hmer, rfl⟩
    intro k hk
    obtain ⟨i, hi⟩ := List.mem_iff_getElem?.1 hk
    exact hE.cinv.range i k ((hf.get i k).1 hi)
  split
  · rename_i hrem
    rw [Ok_pure]
    have hnr : ∀ k, k ∉ rem := by
      intro k hk; rw [← NSet.mem_elems, hrem] at hk; simp at hk
    refine hres c1 (Renum.views (φ := id) (N := c.counter) h hf1
      ⟨fun i k hk => hk, rfl, fun k cc hk => hk, ?_, ?_, fun a b _ _ hab => hab⟩)
    · intro k; rw [h.keys]; simp [hnr]
    · intro k hk; exact ⟨k, (h.keys k).2 ⟨hk, hnr k⟩, rfl⟩
  · rename_i first l hrem
    have hfr : first ∈ rem := by rw [← NSet.mem_elems, hrem]; simp
    have hmin : ∀ k, k ∈ rem → first ≤ k := by
      intro k hk
      have hs := rem.sorted
      rw [← NSet.mem_elems] at hk
      rw [hrem] at hk hs
      rcases List.mem_cons.1 hk with rfl | hk
      · exact Nat.le_refl _
      · exact Nat.le_of_lt ((List.pairwise_cons.1 hs).1 k hk)
    obtain ⟨fcc, hf1', _⟩ := (hE.cinv.sing first).1 (h.remIn first hfr)
    have hflt : first < c.counter := (hE.cinv.keys first).1 (NMap.mem_keys.2 ⟨fcc, hf1'⟩)
    refine Ok.mono (renumber_ok (first := first) ?_ h.range h.part) ?_
    · intro k hk
      exact (h.keys k).2 ⟨by omega, fun hkr => by have := hmin k hkr; omega⟩
    · rintro c' ⟨N, φ, hr, _⟩
      exact hres c' (hr.views h hf1)

end CoMMA
