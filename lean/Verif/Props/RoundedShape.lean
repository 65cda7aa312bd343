import Verif.Lemmas.RoundedRatio
import Verif.Lemmas.DoubleRange
import Verif.Lemmas.Overflow
/-! # C81: the aspect ratios that the growth compares, in double precision -/

namespace CoMMA

variable {W : Type} [Num W] {v : W → ℚ} {Fin : W → Prop} {u η L : ℚ} {N D P : Nat} {g : Graph W}

/-- without barycenter, the aspect ratio is found from the new features -/
theorem compute_value {g : Graph W} {hh : Hash} {kind : ARKind} (hb : kind.bary = false) {i : Nat} {f : Feats W} {cc : NSet}
    {r : Nat × W × Feats W} (h : (arOf g hh kind).compute i f cc = .ok r) : r.2.1 = arValue g.dim kind cc r.2.2 := by
  unfold arOf at h
  simp only [hb] at h
  rw [if_neg (by simp)] at h
  by_cases hg : kind.geom = true
  · rw [if_pos hg] at h
    unfold arGeom at h
    obtain ⟨b, _, h⟩ := bind_ok_iff.1 h
    obtain ⟨y, _, h⟩ := bind_ok_iff.1 h
    cases h
    rfl
  · rw [if_neg hg] at h
    unfold arPlain at h
    obtain ⟨b, _, h⟩ := bind_ok_iff.1 h
    cases h
    rfl

theorem computer_near {E : IsoEnv W (Feats W)} (hC : RangeInput E.g v Fin u η L N D P)
    (hT : Moderation u η L ((2 : ℚ) ^ (-200 : Int)) ((2 : ℚ) ^ (200 : Int))) (hW : LawfulLt W) (hS : SymmArith W)
    {dd : Nat} (hd : ∀ c ∈ E.g.centers, c.length = dd) {kind : ARKind} (hb : kind.bary = false) (hk : kind ≠ .unknown)
    {hh : Hash} (hA : E.ar = arOf E.g hh kind) (hP : 20 * (D + E.g.nbC + dd + 1) ≤ P) :
    ComputerBy E (fun s f => NearFeats E.g v Fin u η D kind s f ∧ FinFeats E.g v Fin L kind s f)
      (RatioNear E.g v u η D dd kind) where
  crs := hC.input.crs
  init x f hx h := by
    rw [hA] at h
    exact ⟨near_init hC.arith hC.input hW hx h, fin_init hC hx h⟩
  step c cc f f' n r hc hcc hne hni hI h := by
    rw [hA] at h
    have hs : ∀ j ∈ cc.insert c, j < E.g.nbC := by
      intro j hj
      rcases NSet.mem_insert.1 hj with rfl | hj
      · exact hc
      · exact hcc j hj
    have hcard := NSet.card_insert hni
    have hle := card_le_n hs
    have h1 := near_compute hC.arith hC.input hW hS hh hc hcc hne hni hI.1 h
    have h2 := fin_compute hC hh hc hcc hni hI.1 hI.2 (by omega) h
    have h3 := compute_value hb h
    simp only at h1 h2 h3
    rw [h3]
    exact ⟨ratio_near hC hT hd hb hk hni hs h1 h2 (by omega), h1, h2⟩

/-! ### Doubles -/

theorem dbl_small : (2 : ℚ) ^ (-1075 : Int) ≤ (2 : ℚ) ^ (-53 : Int) * ((2 : ℚ) ^ (-200 : Int) * (2 : ℚ) ^ (-200 : Int) * (2 : ℚ) ^ (-200 : Int)) := by
  rw [← zpow_add₀ (by norm_num), ← zpow_add₀ (by norm_num), ← zpow_add₀ (by norm_num)]
  exact zpow_le_zpow_right₀ (by norm_num) (by norm_num)

theorem dbl_moderation : Moderation ((2 : ℚ) ^ (-53 : Int)) ((2 : ℚ) ^ (-1075 : Int)) Dbl.largest.value
    ((2 : ℚ) ^ (-200 : Int)) ((2 : ℚ) ^ (200 : Int)) where
  pos := by positivity
  inv := by rw [← zpow_add₀ (by norm_num)]; norm_num
  one := one_le_zpow₀ (by norm_num) (by norm_num)
  eta := dbl_small
  large := by
    refine le_trans ?_ dbl_largest
    rw [show (1024 : ℚ) = (2 : ℚ) ^ (10 : Int) by norm_num]
    rw [← zpow_add₀ (by norm_num), ← zpow_add₀ (by norm_num), ← zpow_add₀ (by norm_num), ← zpow_add₀ (by norm_num), ← zpow_add₀ (by norm_num)]
    exact zpow_le_zpow_right₀ (by norm_num) (by norm_num)
  modest := by
    refine le_trans ?_ dbl_largest
    have h1 : (2 : ℚ) ^ (200 : Int) + 1 ≤ (2 : ℚ) ^ (201 : Int) := by
      have h2 : (1 : ℚ) ≤ (2 : ℚ) ^ (200 : Int) := one_le_zpow₀ (by norm_num) (by norm_num)
      rw [show (201 : Int) = 200 + 1 by norm_num, zpow_add₀ (by norm_num) 200 1, zpow_one]
      linarith
    refine le_trans (mul_le_mul_of_nonneg_left h1 (by positivity)) ?_
    rw [show (2 : ℚ) ^ 60 = (2 : ℚ) ^ (60 : Int) by norm_num, ← zpow_add₀ (by norm_num)]
    exact zpow_le_zpow_right₀ (by norm_num) (by norm_num)

theorem dbl_input {g : Graph Dbl} (hg : RoundedInput g Dbl.value Dbl.Finite (2 ^ 53) D) (hw : ∀ w ∈ g.values, w.Finite) (hD : D + 3 ≤ P)
    (hP : P ≤ 2 ^ 51) :
    RangeInput g Dbl.value Dbl.Finite ((2 : ℚ) ^ (-53 : Int)) ((2 : ℚ) ^ (-1075 : Int)) Dbl.largest.value (2 ^ 53) D P where
  arith := dbl_arith
  range := dbl_range
  input := hg
  weights := hw
  counts := le_rfl
  two := by norm_num
  grow := by
    have hP' : (P : ℚ) ≤ 2 ^ 51 := by exact_mod_cast hP
    have e : (2 : ℚ) ^ (-53 : Int) = 1 / 2 ^ 53 := by rw [zpow_neg]; norm_num
    have h1 : 2 * (P : ℚ) * (2 : ℚ) ^ (-53 : Int) ≤ 1 / 2 := by
      rw [e]; linarith
    have := grow_le (u := (2 : ℚ) ^ (-53 : Int)) (by positivity) P (h1.trans (by norm_num))
    have h2 := this.trans h1
    generalize (1 + (2 : ℚ) ^ (-53 : Int)) ^ P = G at h2
    linarith
  tiny := by
    have hP' : (P : ℚ) ≤ (2 : ℚ) ^ (51 : Int) := by norm_num; exact_mod_cast hP
    refine (mul_le_mul_of_nonneg_right hP' (by positivity)).trans ?_
    rw [← zpow_add₀ (by norm_num)]
    exact zpow_le_one_of_nonpos₀ (by norm_num) (by norm_num)
  rows := hD

/-- the aspect ratio `r` computed in double precision for the set `s` is the exact one up to rounding, unless the numbers are
too small or too large -/
def DblRatio (g : Graph Dbl) (D d : Nat) (kind : ARKind) (s : NSet) (r : Dbl) : Prop :=
  RatioNear g Dbl.value ((2 : ℚ) ^ (-53 : Int)) ((2 : ℚ) ^ (-1075 : Int)) D d kind s r

/-- **C81** Each coarse cell of an isotropic call without correction is grown and cut as in C41, and the aspect ratios by which the
candidates are compared, computed in double precision, are the exact aspect ratios of the coarse cell with each
candidate, up to as many rounding errors as there are operations.  Nothing overflows on the way if the exact volumes, weights and lengths are moderate.  For the
kinds of aspect ratio that do not use the barycenter. -/
theorem C81_shape {P : Platform} {a : Args Dbl} {o : Outs} {n D d : Nat} (hm : ValidMesh a n) (hp : ValidParams P a)
    (hu : UniqueRows a.rowPtr a.colInd) (hl : NoSelfLoop a.rowPtr a.colInd)
    (hg : RoundedInput (graphOf a) Dbl.value Dbl.Finite (2 ^ 53) D) (hw : ∀ w ∈ (graphOf a).values, w.Finite)
    (hd : ∀ c ∈ (graphOf a).centers, c.length = d) (hsize : 20 * (D + n + d + 1) ≤ 2 ^ 51) (hb : a.aspect.bary = false)
    (hcor : a.correction = false) (hoff : WithoutLines a o) {k : Nat} (hk : k ∈ (agglomerateOneLevel P a o).1.fcToCc) :
    ∃ E agg seed order s, CallEnv P a E ∧
      (∀ i : Nat, i < n → ∃ j, (agglomerateOneLevel P a o).1.fcToCc[i]? = some j ∧ agg[i]? = some (decide (j < k))) ∧
      GrownCell E (SeqBy E (DblRatio (graphOf a) D d a.aspect)) agg seed order s ∧
      ∀ i : Nat, (agglomerateOneLevel P a o).1.fcToCc[i]? = some k ↔ i ∈ s := by
  obtain ⟨c, agg, seed, order, s, hc, h1, h2, h3⟩ := cell_greedy hm hp dbl_lawful hu hl hcor hoff hk
  have hE := isoInput hm hp hc
  have hn : (isoEnvOf P a c).g.nbC = n := graphOf_nbC hm
  obtain ⟨f, hf, hlen⟩ := C01_total (o := o) hm hp (fun h => by rw [hcor] at h; cases h) hoff
  have hmin := hE.minCard
  refine ⟨isoEnvOf P a c, agg, seed, order, s, callEnv hp hc, h1, h2.mono (by omega) ?_, h3⟩
  rintro e hi xs hhead hs ⟨ft, hgr⟩
  have hsl : seed < (isoEnvOf P a c).g.nbC := by
    have := (h3 seed).2 hs
    rw [hf] at this
    have := (List.getElem?_eq_some_iff.1 this).1
    rw [hlen] at this
    omega
  have hI : RangeInput (isoEnvOf P a c).g Dbl.value Dbl.Finite ((2 : ℚ) ^ (-53 : Int)) ((2 : ℚ) ^ (-1075 : Int)) Dbl.largest.value (2 ^ 53) D
      (20 * (D + n + d + 1)) := dbl_input hg hw (by omega) hsize
  have hC := computer_near (E := isoEnvOf P a c) hI dbl_moderation dbl_lawful dbl_symm hd hb hp.aspect rfl (by rw [hn])
  exact (greedy_by hC hgr hhead hsl).1

theorem range_features (hC : RangeInput g v Fin u η L N D P) (hW : LawfulLt W) (hS : SymmArith W) (kind : ARKind)
    (h : Hash) {dd : Nat} (hdd : ∀ c ∈ g.centers, c.length = dd) {cells : List Nat} (hne : cells ≠ []) (hn : cells.Nodup) (hlt : ∀ i ∈ cells, i < g.nbC)
    (hP : D + 2 * cells.length + 1 ≤ P) :
    ∃ f, featsAfter (arOf g h kind) cells = .ok f ∧ NearFeats g v Fin u η D kind (NSet.ofList cells) f ∧
      FinFeats g v Fin L kind (NSet.ofList cells) f ∧ FeatInv g kind dd (NSet.ofList cells) f := by
  have hR := hC.arith
  have hg := hC.input
  have hA := arOf_safeInv hg.crs hg.sizes h kind hdd
  cases cells with
  | nil => exact absurd rfl hne
  | cons x xs =>
    refine Ok.eq ?_
    unfold featsAfter
    simp only
    obtain ⟨f0, e0, i0⟩ := (hA.init x (hlt x (by simp))).eq
    rw [e0, ok_bind]
    refine Ok.bind (P := fun (r : Feats W × NSet) => NearFeats g v Fin u η D kind (NSet.ofList (x :: xs)) r.1 ∧
      FinFeats g v Fin L kind (NSet.ofList (x :: xs)) r.1 ∧ FeatInv g kind dd (NSet.ofList (x :: xs)) r.1) ?_ (fun r hr => hr)
    refine Ok.mono (Ok.foldlM_prefix (I := fun pre (r : Feats W × NSet) => r.2 = NSet.ofList (x :: pre) ∧ NearFeats g v Fin u η D kind r.2 r.1 ∧
      FinFeats g v Fin L kind r.2 r.1 ∧ FeatInv g kind dd r.2 r.1)
      ⟨rfl, near_init hR hg hW (hlt x (by simp)) e0, fin_init hC (hlt x (by simp)) e0, i0⟩ ?_) (fun r hr => hr.1 ▸ hr.2)
    rintro pre y post ⟨f, s⟩ hl ⟨h1, h2, h4, h3⟩
    simp only at h1 h2 h3 h4 ⊢
    have hy : y ∈ x :: xs := by rw [hl]; simp
    have hmem : ∀ z, z ∈ s ↔ z ∈ x :: pre := fun z => by rw [h1, NSet.mem_ofList]
    have hn' : (x :: pre ++ y :: post).Nodup := by rw [List.cons_append, ← hl]; exact hn
    have hys : y ∉ s := by
      rw [hmem]
      exact fun hh => (List.disjoint_of_nodup_append hn' hh) (by simp)
    have hs : ∀ z ∈ s, z < g.nbC := by
      intro z hz
      refine hlt z ?_
      rw [hl]
      have := (hmem z).1 hz
      simp only [List.mem_cons, List.mem_append] at this ⊢
      rcases this with h | h
      · exact Or.inl h
      · exact Or.inr (Or.inl h)
    have hcard : s.card ≤ (x :: xs).length := by
      rw [h1, NSet.card_ofList (List.Nodup.of_append_left hn'), hl]
      simp
    obtain ⟨r, r1, r2⟩ := (hA.compute s f y h3 hs (hlt y hy) hys).eq
    rw [r1, ok_bind, Ok_pure]
    refine ⟨?_, near_compute hR hg hW hS h (hlt y hy) hs ⟨x, (hmem x).2 (by simp)⟩ hys h2 r1,
      fin_compute hC h (hlt y hy) hs hys h2 h4 (by omega) r1, r2.2⟩
    show s.insert y = _
    rw [← List.cons_append, ofList_append, h1]

/-- **C81** The aspect ratio with one more cell, for features that come from adding the cells one after the other. -/
theorem C81_ratio {g : Graph Dbl} {D d : Nat} (hg : RoundedInput g Dbl.value Dbl.Finite (2 ^ 53) D) (hw : ∀ w ∈ g.values, w.Finite)
    (hd : ∀ c ∈ g.centers, c.length = d) {kind : ARKind} (hb : kind.bary = false) (hk : kind ≠ .unknown) (h : Hash)
    {cells : List Nat} {c : Nat} (hne : cells ≠ []) (hn : cells.Nodup) (hlt : ∀ i ∈ cells, i < g.nbC) (hc : c < g.nbC) (hcc : c ∉ cells)
    (hsize : 20 * (D + cells.length + d + 2) ≤ 2 ^ 51) :
    ∃ f n r f', featsAfter (arOf g h kind) cells = .ok f ∧ (arOf g h kind).compute c f (NSet.ofList cells) = .ok (n, r, f') ∧
      DblRatio g D d kind ((NSet.ofList cells).insert c) r := by
  have hC := dbl_input (P := 20 * (D + cells.length + d + 2)) hg hw (by omega) hsize
  obtain ⟨f, h1, h2, h3, h4⟩ := range_features hC dbl_lawful dbl_symm kind h hd hne hn hlt (by omega)
  have hs : ∀ i ∈ NSet.ofList cells, i < g.nbC := fun i hi => hlt i (NSet.mem_ofList.1 hi)
  have hni : c ∉ NSet.ofList cells := fun hx => hcc (NSet.mem_ofList.1 hx)
  have hcard : (NSet.ofList cells).card = cells.length := NSet.card_ofList hn
  have hins := NSet.card_insert hni
  obtain ⟨⟨n, r, f'⟩, r1, _⟩ := ((arOf_safeInv hg.crs hg.sizes h kind hd).compute _ f c h4 hs hc hni).eq
  refine ⟨f, n, r, f', h1, r1, ?_⟩
  obtain ⟨x, hx⟩ := List.exists_mem_of_ne_nil _ hne
  have n2 := near_compute dbl_arith hg dbl_lawful dbl_symm h hc hs ⟨x, NSet.mem_ofList.2 hx⟩ hni h2 r1
  have n3 := fin_compute hC h hc hs hni h2 h3 (by omega) r1
  have e := compute_value hb r1
  simp only at e n2 n3
  rw [e]
  refine ratio_near hC dbl_moderation hd hb hk hni ?_ n2 n3 (by omega)
  intro j hj
  rcases NSet.mem_insert.1 hj with rfl | hj
  · exact hc
  · exact hs j hj

theorem lmin_small : (Num.lmin : ℚ) ≤ (2 : ℚ) ^ (900 : Int) := by
  have h1 : (Num.lmin : Dbl).value ≤ (Dbl.dec 1 0).value := by rw [Dbl.value_le]; decide
  have h2 : (Dbl.dec 1 0).value ≤ (2 : ℚ) ^ (900 : Int) := by decide +kernel
  exact h1.trans h2

theorem modest_dbl {x : ℚ} (h : x ≤ (2 : ℚ) ^ (900 : Int)) : Modest Dbl.largest.value x := by
  unfold Modest
  refine le_trans ?_ dbl_largest
  have h1 : x + 1 ≤ (2 : ℚ) ^ (901 : Int) := by
    have h2 : (1 : ℚ) ≤ (2 : ℚ) ^ (900 : Int) := one_le_zpow₀ (by norm_num) (by norm_num)
    rw [show (901 : Int) = 900 + 1 by norm_num, zpow_add₀ (by norm_num) 900 1, zpow_one]
    generalize (2 : ℚ) ^ (900 : Int) = T at h h2
    linarith
  refine le_trans (mul_le_mul_of_nonneg_left h1 (by positivity)) ?_
  rw [show (2 : ℚ) ^ 60 = (2 : ℚ) ^ (60 : Int) by norm_num, ← zpow_add₀ (by norm_num)]
  exact zpow_le_zpow_right₀ (by norm_num) (by norm_num)

/-- **C80** The features do not overflow if the exact ones are at most `2 ^ 900`. -/
theorem C80_finite {g : Graph Dbl} {D d : Nat} (hg : RoundedInput g Dbl.value Dbl.Finite (2 ^ 53) D) (hw : ∀ w ∈ g.values, w.Finite)
    (hd : ∀ c ∈ g.centers, c.length = d) (kind : ARKind) (h : Hash) {cells : List Nat} (hne : cells ≠ []) (hn : cells.Nodup)
    (hlt : ∀ i ∈ cells, i < g.nbC) (hsize : D + 2 * cells.length + d + 3 ≤ 2 ^ 51) :
    ∃ f, featsAfter (arOf g h kind) cells = .ok f ∧
      (measureOf (g.exact Dbl.value) (NSet.ofList cells) ≤ (2 : ℚ) ^ (900 : Int) → f.measure.Finite) ∧
      (kind.weights = true → internalWeight (g.exact Dbl.value) (NSet.ofList cells) ≤ (2 : ℚ) ^ (900 : Int) → f.int.Finite) ∧
      (kind.weights = true → externalWeight (g.exact Dbl.value) (NSet.ofList cells) +
        4 * internalWeight (g.exact Dbl.value) (NSet.ofList cells) ≤ (2 : ℚ) ^ (900 : Int) → f.ext.Finite) ∧
      (kind.geom = true → (∀ m, PairDist (g.exact Dbl.value) (NSet.ofList cells) m → m ≤ (2 : ℚ) ^ (900 : Int)) → f.sqDiam.Finite) := by
  have hC := dbl_input (P := D + 2 * cells.length + d + 3) hg hw (by omega) hsize
  obtain ⟨f, h1, h2, h3, h4⟩ := range_features hC dbl_lawful dbl_symm kind h hd hne hn hlt (by omega)
  refine ⟨f, h1, fun hm => h3.measure (modest_dbl hm), fun hk hm => h3.int hk (modest_dbl hm), fun hk hm => h3.ext hk (modest_dbl hm), ?_⟩
  intro hk hm
  have hs : ∀ i ∈ NSet.ofList cells, i < g.nbC := fun i hi => hlt i (NSet.mem_ofList.1 hi)
  obtain ⟨x, hx⟩ := List.exists_mem_of_ne_nil _ hne
  obtain ⟨⟨m, hdm⟩, _⟩ := exact_lengths hg hs ⟨x, NSet.mem_ofList.2 hx⟩
  refine fin_diam hC hd (by omega) hs (h2.diam hk) hdm (modest_dbl ?_)
  rcases hdm.1 with rfl | hp
  · exact lmin_small
  · exact hm m hp

theorem InRange.nonneg {x : ℚ} (h : InRange x) : 0 ≤ x := le_trans (by positivity) h.1

theorem scale_nonneg {g : Graph ℚ} {kind : ARKind} {s : NSet} (hM : ModerateSet g kind s) (hb : kind.bary = false) (hk : kind ≠ .unknown)
    {q : ℚ} (hq : RatioOf g kind s q) : 0 ≤ ratioSize g kind s q := by
  have h0 := hM.measure.nonneg
  cases kind with
  | diamOverRadius =>
    obtain ⟨m, hm, rfl⟩ := hq
    have := (hM.diam rfl m hm).nonneg
    show 0 ≤ overRadius g s m
    unfold overRadius
    split
    · exact div_nonneg this h0
    · exact div_nonneg (mul_nonneg (mul_nonneg this this) this) (mul_nonneg h0 h0)
  | diamOverMinEdge =>
    obtain ⟨m, e, hm, he, rfl⟩ := hq
    have := (hM.diam rfl m hm).nonneg
    show 0 ≤ (if s.card = 2 then m else m / e)
    split
    · exact this
    · rename_i h2
      exact div_nonneg this (hM.edge rfl h2 e he).nonneg
  | diameter => exact (hM.diam rfl q hq).nonneg
  | overMeasure =>
    have e : q = ((1 : Nat) : ℚ) / measureOf g s := hq
    show 0 ≤ q
    rw [e]; positivity
  | overInternal =>
    have e : q = ((1 : Nat) : ℚ) / internalWeight g s := hq
    have := (hM.internal rfl).nonneg
    show 0 ≤ q
    rw [e]; positivity
  | perimOverRadius =>
    have := (hM.external rfl).nonneg
    unfold ratioSize
    simp only
    split <;> positivity
  | external => exact (hM.external rfl).nonneg
  | algebraic => exact div_nonneg (hM.external rfl).nonneg h0
  | maxBaryOverRadius => cases hb
  | maxOverMinBary => cases hb
  | unknown => exact absurd rfl hk

/-- the error of an aspect ratio of `s` in double precision -/
def ratioError (g : Graph Dbl) (D d : Nat) (kind : ARKind) (s : NSet) (q : ℚ) : ℚ :=
  (20 * (D + s.card + d + 1) : Nat) / 2 ^ 52 * ratioSize (g.exact Dbl.value) kind s q + (2 : ℚ) ^ (-1074 : Int)

/-- **C81** A computed aspect ratio differs from the exact one by at most `20 * (D + k + d + 1) / 2 ^ 52` of it (of the aspect ratio with the external weight
and four times the internal weight in the place of the external weight, if it uses this one), and `2 ^ -1074`. -/
theorem C81_error {g : Graph Dbl} {D d : Nat} {kind : ARKind} (hb : kind.bary = false) (hk : kind ≠ .unknown) {s : NSet} {r : Dbl}
    (h : DblRatio g D d kind s r) (hM : ModerateSet (g.exact Dbl.value) kind s) (hsize : 20 * (D + s.card + d + 1) ≤ 2 ^ 52) :
    ∃ q, RatioOf (g.exact Dbl.value) kind s q ∧ |r.value - q| ≤ ratioError g D d kind s q := by
  obtain ⟨q, hq, hn⟩ := h hM
  refine ⟨q, hq, (near_simple hsize (by positivity) (scale_nonneg hM hb hk hq) hn).trans (le_of_eq ?_)⟩
  unfold ratioError
  congr 1
  rw [show (-1074 : Int) = 1 + -1075 by norm_num, zpow_add₀ (by norm_num), zpow_one]

/-- **C81** So if the exact aspect ratio of one set is smaller than that of another one by more than the errors, the computed
one is smaller, too. -/
theorem C81_order {g : Graph Dbl} {D d : Nat} {kind : ARKind} (hb : kind.bary = false) (hk : kind ≠ .unknown) {s s' : NSet} {r r' : Dbl}
    (h : DblRatio g D d kind s r) (hM : ModerateSet (g.exact Dbl.value) kind s) (hsize : 20 * (D + s.card + d + 1) ≤ 2 ^ 52)
    (h' : DblRatio g D d kind s' r') (hM' : ModerateSet (g.exact Dbl.value) kind s') (hsize' : 20 * (D + s'.card + d + 1) ≤ 2 ^ 52) :
    ∃ q q', RatioOf (g.exact Dbl.value) kind s q ∧ RatioOf (g.exact Dbl.value) kind s' q' ∧
      (q + ratioError g D d kind s q + ratioError g D d kind s' q' < q' → Num.lt r r' = true) := by
  obtain ⟨q, hq, h1⟩ := C81_error hb hk h hM hsize
  obtain ⟨q', hq', h2⟩ := C81_error hb hk h' hM' hsize'
  refine ⟨q, q', hq, hq', fun hlt => ?_⟩
  rw [dbl_arith.lt]
  rw [abs_le] at h1 h2
  exact decide_eq_true (by linarith [h1.2, h2.1])

/-! ### Examples -/

theorem exRounds_input : RoundedInput (graphOf exRounds) Dbl.value Dbl.Finite (2 ^ 53) 3 where
  crs := exRounds_crs
  sizes := ⟨rfl, rfl, rfl, rfl, 2, by decide⟩
  sym := checkSym_sound exRounds_crs (by decide)
  loop := checkNoLoop_sound exRounds_crs (by decide)
  symW := exact_symW _ exRounds_crs rfl (by decide)
  finite := by decide +kernel
  weights := dbl_nonneg (by decide)
  volumes := dbl_nonneg (by decide)
  rows := by decide
  limit := by norm_num
  bnd := by decide
  alone := by decide

theorem exRounds_finite : ∀ w ∈ (graphOf exRounds).values, w.Finite := by decide +kernel

example := C81_shape (o := ⟨[], [], []⟩) (d := 2) exRounds_valid exRounds_params (checkUniq_sound exRounds_crs (by decide))
  (checkNoLoop_sound exRounds_crs (by decide)) exRounds_input exRounds_finite (by decide) (by norm_num) rfl rfl (Or.inl rfl)
  (k := 1) (by decide +kernel)

/-- the weights are moderate -/
theorem exRounds_moderate : ModerateSet ((graphOf exRounds).exact Dbl.value) .external (NSet.ofList [0, 1]) where
  measure := by unfold InRange; decide +kernel
  internal h := by cases h
  external _ := by unfold InRange; decide +kernel
  diam h := by cases h
  edge h := by cases h

/-- so are they with one more cell -/
theorem exRounds_moderate' : ModerateSet ((graphOf exRounds).exact Dbl.value) .external ((NSet.ofList [0, 1]).insert 3) where
  measure := by unfold InRange; decide +kernel
  internal h := by cases h
  external _ := by unfold InRange; decide +kernel
  diam h := by cases h
  edge h := by cases h

example := C81_ratio exRounds_input exRounds_finite (d := 2) (by decide) (kind := .external) rfl (by decide) Hash.id (cells := [0, 1]) (c := 3)
  (by decide) (by decide) (by decide) (by decide) (by decide) (by norm_num)

/-- the error for these three cells -/
example {r : Dbl} (h : DblRatio (graphOf exRounds) 3 2 .external ((NSet.ofList [0, 1]).insert 3) r) := C81_error rfl (by decide) h exRounds_moderate' (by decide)

theorem exTiny_finite : ∀ w ∈ exTiny.values, w.Finite := by decide +kernel

/-- the centers of cells 0, 1 and 2 are neither too near nor too far -/
theorem exTiny_moderate : ModerateSet (exTiny.exact Dbl.value) .diamOverMinEdge ((NSet.ofList [0, 1]).insert 2) := by
  have hpairs : ∀ m, PairDist (exTiny.exact Dbl.value) ((NSet.ofList [0, 1]).insert 2) m → InRange m := by
    have h : ∀ i ∈ [0, 1, 2], ∀ j ∈ [0, 1, 2], i ≠ j → (2 : ℚ) ^ (-200 : Int) ≤ dist2 (centerAt (exTiny.exact Dbl.value) i) (centerAt (exTiny.exact Dbl.value) j) ∧
        dist2 (centerAt (exTiny.exact Dbl.value) i) (centerAt (exTiny.exact Dbl.value) j) ≤ (2 : ℚ) ^ (200 : Int) := by decide +kernel
    rintro m ⟨i, hi, j, hj, hij, rfl⟩
    have mem : ∀ i, i ∈ (NSet.ofList [0, 1]).insert 2 → i ∈ [0, 1, 2] := by
      intro i hi
      simp only [NSet.mem_insert, NSet.mem_ofList, List.mem_cons] at hi ⊢
      tauto
    exact h i (mem i hi) j (mem j hj) hij
  have h01 : PairDist (exTiny.exact Dbl.value) ((NSet.ofList [0, 1]).insert 2)
      (dist2 (centerAt (exTiny.exact Dbl.value) 0) (centerAt (exTiny.exact Dbl.value) 1)) := ⟨0, by decide, 1, by decide, by decide, rfl⟩
  have hl : (Num.lmin : ℚ) < dist2 (centerAt (exTiny.exact Dbl.value) 0) (centerAt (exTiny.exact Dbl.value) 1) := by decide +kernel
  have hu : dist2 (centerAt (exTiny.exact Dbl.value) 0) (centerAt (exTiny.exact Dbl.value) 1) < (Num.lmax : ℚ) := by decide +kernel
  refine ⟨by unfold InRange; decide +kernel, (fun h => by cases h), (fun h => by cases h), ?_, ?_⟩
  · rintro _ m ⟨rfl | hm, _, h2⟩
    · exact absurd hl (of_decide_eq_false (h2 _ h01))
    · exact hpairs m hm
  · rintro _ _ m ⟨rfl | hm, _, h2⟩
    · exact absurd hu (of_decide_eq_false (h2 _ h01))
    · exact hpairs m hm

example {r r' : Dbl} (h : DblRatio exTiny 2 2 .diamOverMinEdge ((NSet.ofList [0, 1]).insert 2) r)
    (h' : DblRatio exTiny 2 2 .diamOverMinEdge ((NSet.ofList [0, 1]).insert 2) r') :=
  C81_order rfl (by decide) h exTiny_moderate (by decide) h' exTiny_moderate (by decide)

example := C80_finite exTiny_input exTiny_finite (d := 2) (by decide) .external Hash.id (cells := [2, 0, 1]) (by decide) (by decide) (by decide) (by decide)

end CoMMA
