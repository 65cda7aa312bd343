import Verif.Lemmas.DoubleArith
import Verif.Lemmas.AspectRatio
import Verif.Props.Features
import Verif.Props.NumberingDouble
/-! # C80: features of a growing coarse cell in double precision -/

namespace CoMMA

variable {W : Type} [Num W] {v : W → ℚ} {Fin : W → Prop} {u η : ℚ} {N D : Nat} {g : Graph W}

theorem exact_input (hg : RoundedInput g v Fin N D) : FeatInput (g.exact v) .diameter where
  crs := hg.crs
  sizes := exact_sizes v hg.sizes
  sym := hg.sym
  add := rat_comm
  weights h := by cases h
  geom _ := ⟨rat_lawful, rat_symm⟩
  bary h := by cases h
  facets h := by cases h

theorem rounded_features (hR : RoundedArith W v Fin u η N) (hg : RoundedInput g v Fin N D) (hW : LawfulLt W) (hS : SymmArith W) (kind : ARKind)
    (h : Hash) {cells : List Nat} (hne : cells ≠ []) (hn : cells.Nodup) (hlt : ∀ i ∈ cells, i < g.nbC) :
    ∃ f, featsAfter (arOf g h kind) cells = .ok f ∧ NearFeats g v Fin u η D kind (NSet.ofList cells) f := by
  obtain ⟨dd, hdd⟩ := hg.sizes.coords
  have hA := arOf_safeInv hg.crs hg.sizes h kind hdd
  cases cells with
  | nil => exact absurd rfl hne
  | cons x xs =>
    refine Ok.eq ?_
    unfold featsAfter
    simp only
    obtain ⟨f0, e0, i0⟩ := (hA.init x (hlt x (by simp))).eq
    rw [e0, ok_bind]
    refine Ok.bind (P := fun (r : Feats W × NSet) => NearFeats g v Fin u η D kind (NSet.ofList (x :: xs)) r.1) ?_ (fun r hr => hr)
    refine Ok.mono (Ok.foldlM_prefix (I := fun pre (r : Feats W × NSet) => r.2 = NSet.ofList (x :: pre) ∧ NearFeats g v Fin u η D kind r.2 r.1 ∧
      FeatInv g kind dd r.2 r.1) ⟨rfl, near_init hR hg hW (hlt x (by simp)) e0, i0⟩ ?_) (fun r hr => hr.1 ▸ hr.2.1)
    rintro pre y post ⟨f, s⟩ hl ⟨h1, h2, h3⟩
    simp only at h1 h2 h3 ⊢
    have hy : y ∈ x :: xs := by rw [hl]; simp
    have hmem : ∀ z, z ∈ s ↔ z ∈ x :: pre := fun z => by rw [h1, NSet.mem_ofList]
    have hys : y ∉ s := by
      rw [hmem]
      have hn' : (x :: pre ++ y :: post).Nodup := by rw [List.cons_append, ← hl]; exact hn
      exact fun hh => (List.disjoint_of_nodup_append hn' hh) (by simp)
    have hs : ∀ z ∈ s, z < g.nbC := by
      intro z hz
      refine hlt z ?_
      rw [hl]
      have := (hmem z).1 hz
      simp only [List.mem_cons, List.mem_append] at this ⊢
      rcases this with h | h
      · exact Or.inl h
      · exact Or.inr (Or.inl h)
    obtain ⟨r, r1, r2⟩ := (hA.compute s f y h3 hs (hlt y hy) hys).eq
    rw [r1, ok_bind, Ok_pure]
    refine ⟨?_, near_compute hR hg hW hS h (hlt y hy) hs ⟨x, (hmem x).2 (by simp)⟩ hys h2 r1, r2.2⟩
    show s.insert y = _
    rw [← List.cons_append, ofList_append, h1]

theorem rounded_featsNear (hR : RoundedArith W v Fin u η N) (hg : RoundedInput g v Fin N D) {kind : ARKind}
    {cells : List Nat} (hne : cells ≠ []) (hn : cells.Nodup) (hlt : ∀ i ∈ cells, i < g.nbC) {f : Feats W}
    (hf : NearFeats g v Fin u η D kind (NSet.ofList cells) f) : FeatsNear g v Fin u η D kind (NSet.ofList cells) f where
  measure := hf.measure
  nInt := hf.nInt
  int := hf.int
  ext := hf.ext
  diam hk hfin d hd := by
    obtain ⟨F, _, hF⟩ := C31_features (exact_input hg) (by decide) (h := Hash.id) hne hn hlt
    exact ⟨_, hF.diam rfl, near_diam hR hg hd (fun i hi => hlt i (NSet.mem_ofList.1 hi)) (hf.diam hk) (hF.diam rfl) hfin⟩
  edge hk hfin d hd := by
    obtain ⟨F, _, hF⟩ := C31_features (exact_input hg) (by decide) (h := Hash.id) hne hn hlt
    exact ⟨_, hF.edge rfl, near_edge hR hg hd (fun i hi => hlt i (NSet.mem_ofList.1 hi)) (hf.diam hk) hfin (hf.edge hk) (hF.edge rfl)⟩
  moments := hf.moments

/-- **C80** In double precision, whatever the order in which the cells of a coarse cell are added, every feature that the kind of
aspect ratio uses is the exact one up to the rounding of as many operations as it takes: the total volume and the internal
weight relative to themselves, the external weight relative to itself and four times the internal weight, the squared
lengths relative to themselves.  The number of internal faces is exact. -/
theorem C80_features {g : Graph Dbl} {D : Nat} (hg : RoundedInput g Dbl.value Dbl.Finite (2 ^ 53) D) (kind : ARKind) (h : Hash)
    {cells : List Nat} (hne : cells ≠ []) (hn : cells.Nodup) (hlt : ∀ i ∈ cells, i < g.nbC) :
    ∃ f, featsAfter (arOf g h kind) cells = .ok f ∧
      FeatsNear g Dbl.value Dbl.Finite ((2 : ℚ) ^ (-53 : Int)) ((2 : ℚ) ^ (-1075 : Int)) D kind (NSet.ofList cells) f := by
  obtain ⟨f, h1, h2⟩ := rounded_features dbl_arith hg dbl_lawful dbl_symm kind h hne hn hlt
  exact ⟨f, h1, rounded_featsNear dbl_arith hg hne hn hlt h2⟩

/-- rounding errors grow about linearly -/
theorem grow_le {u : ℚ} (hu : 0 ≤ u) : ∀ p : Nat, 2 * p * u ≤ 1 → (1 + u) ^ p - 1 ≤ 2 * p * u := by
  intro p
  induction p with
  | zero => intro _; simp
  | succ p ih =>
    intro h
    push_cast at h ⊢
    have h1 := ih (by linarith)
    have h2 : (1 + u) * ((1 + u) ^ p - 1) ≤ (1 + u) * (2 * p * u) := mul_le_mul_of_nonneg_left h1 (by linarith)
    have h3 : 2 * p * u * u ≤ 1 * u := mul_le_mul_of_nonneg_right (by linarith) hu
    rw [pow_succ]
    linarith

theorem near_simple {p : Nat} (hp : p ≤ 2 ^ 52) {e x A S : ℚ} (he : 0 ≤ e) (hS : 0 ≤ S) (h : Near ((2 : ℚ) ^ (-53 : Int)) p e x A S) :
    |x - A| ≤ p / 2 ^ 52 * S + 2 * e := by
  have hu : (0 : ℚ) ≤ (2 : ℚ) ^ (-53 : Int) := by positivity
  have hp' : (p : ℚ) ≤ 2 ^ 52 := by exact_mod_cast hp
  have e1 : 2 * (p : ℚ) * (2 : ℚ) ^ (-53 : Int) = p / 2 ^ 52 := by
    rw [zpow_neg]; norm_num; ring
  have h1 : (p : ℚ) / 2 ^ 52 ≤ 1 := by rw [div_le_one (by positivity)]; exact hp'
  have h2 := grow_le hu p (by rw [e1]; exact h1)
  rw [e1] at h2
  unfold Near at h
  generalize (1 + (2 : ℚ) ^ (-53 : Int)) ^ p = G at h h2
  have h3 := h2.trans h1
  exact h.trans (add_le_add (mul_le_mul_of_nonneg_right h2 hS) (mul_le_mul_of_nonneg_right (by linarith) he))

/-- **C80** In simpler terms: if the coarse cell has `k` cells, all with at most `D` neighbours, the computed volume differs from
the exact one by at most `k / 2 ^ 52` times the exact one, the internal weight by at most `(D + k) / 2 ^ 52` times the exact one, the external
weight by at most `(D + 2 * k + 1) / 2 ^ 52` times the sum of the external weight and four times the internal weight, up to
`k / 2 ^ 1073`. -/
theorem C80_relative {g : Graph Dbl} {D : Nat} (hg : RoundedInput g Dbl.value Dbl.Finite (2 ^ 53) D) (kind : ARKind) (h : Hash)
    {cells : List Nat} (hne : cells ≠ []) (hn : cells.Nodup) (hlt : ∀ i ∈ cells, i < g.nbC) (hsize : D + 2 * cells.length + 1 ≤ 2 ^ 52) :
    ∃ f, featsAfter (arOf g h kind) cells = .ok f ∧
      (f.measure.Finite → |f.measure.value - measureOf (g.exact Dbl.value) (NSet.ofList cells)| ≤
        cells.length / 2 ^ 52 * measureOf (g.exact Dbl.value) (NSet.ofList cells)) ∧
      (kind.weights = true → f.int.Finite → |f.int.value - internalWeight (g.exact Dbl.value) (NSet.ofList cells)| ≤
        (D + cells.length : Nat) / 2 ^ 52 * internalWeight (g.exact Dbl.value) (NSet.ofList cells)) ∧
      (kind.weights = true → f.ext.Finite → |f.ext.value - externalWeight (g.exact Dbl.value) (NSet.ofList cells)| ≤
        (D + 2 * cells.length + 1 : Nat) / 2 ^ 52 * (externalWeight (g.exact Dbl.value) (NSet.ofList cells) +
          4 * internalWeight (g.exact Dbl.value) (NSet.ofList cells)) + cells.length / 2 ^ 1073) := by
  obtain ⟨f, h1, h2⟩ := C80_features hg kind h hne hn hlt
  have hcard : (NSet.ofList cells).card = cells.length := NSet.card_ofList hn
  have hs : ∀ i ∈ NSet.ofList cells, i < g.nbC := fun i hi => hlt i (NSet.mem_ofList.1 hi)
  have hM := measure_nonneg dbl_arith hg hs
  have hI := internal_nonneg dbl_arith hg (NSet.ofList cells)
  have hE := external_nonneg dbl_arith hg hs
  refine ⟨f, h1, ?_, ?_, ?_⟩
  · intro hf
    have := (h2.measure hf).mono dbl_arith.nonneg (q := cells.length) (by omega) le_rfl le_rfl le_rfl hM
    simpa using near_simple (by omega) le_rfl hM this
  · intro hk hf
    have := h2.int hk hf
    rw [hcard] at this
    simpa using near_simple (by omega) le_rfl hI this
  · intro hk hf
    have := h2.ext hk hf
    rw [hcard] at this
    have := near_simple (by omega) (by positivity) (by linarith) this
    refine this.trans (add_le_add le_rfl (le_of_eq ?_))
    have e : (2 : ℚ) ^ (-1075 : Int) * 4 = 1 / 2 ^ 1073 := by
      rw [zpow_neg, show ((2 : ℚ) ^ (1075 : Int)) = (2 : ℚ) ^ (1073 : Nat) * 4 by
        rw [show (1075 : Int) = ((1073 : Nat) : Int) + 2 by norm_num, zpow_add₀ (by norm_num), zpow_natCast]; norm_num]
      field_simp
    calc 2 * (2 * (cells.length : ℚ) * (2 : ℚ) ^ (-1075 : Int)) = cells.length * ((2 : ℚ) ^ (-1075 : Int) * 4) := by ring
      _ = _ := by rw [e]; ring

/-! ### Examples -/

/-- the same weights on both sides, as rational numbers -/
theorem exact_symW {g : Graph W} (v : W → ℚ) (h : ValidCRS g.nbC g.rowPtr g.colInd) (hv : g.values.length = g.colInd.length)
    (hc : ∀ i, i < g.nbC → ∀ j, j < g.nbC → ((facesOf g i).filter (fun e => decide (e.1 = j))).map Prod.snd =
      ((facesOf g j).filter (fun e => decide (e.1 = i))).map Prod.snd) : SymWeights (g.exact v) := by
  refine symWeights_of (g := g.exact v) h (by show (g.values.map v).length = _; rw [List.length_map]; exact hv) ?_
  intro i hi j hj
  have e : ∀ l : List (Nat × W), l.map (fun e => v e.2) = (l.map Prod.snd).map v := fun l => by rw [List.map_map]; rfl
  rw [exact_weightTo, exact_weightTo, e, e, hc i hi j hj]

/-- four cells in a row, joined by faces of weight 1, 2 ^ -54 and 2 ^ -55; the last one has a boundary face -/
def exTiny : Graph Dbl where
  nbC := 4
  rowPtr := [0, 1, 3, 5, 6]
  colInd := [1, 0, 2, 1, 3, 2]
  values := [Dbl.dec 1 0, Dbl.dec 1 0, ⟨969 * 2 ^ 52⟩, ⟨969 * 2 ^ 52⟩, ⟨968 * 2 ^ 52⟩, ⟨968 * 2 ^ 52⟩]
  volumes := [Dbl.dec 1 1, Dbl.dec 2 1, Dbl.dec 3 1, Dbl.dec 4 1]
  centers := [[Dbl.dec 1 1, Dbl.dec 0 0], [Dbl.dec 7 1, Dbl.dec 1 1], [Dbl.dec 13 1, Dbl.dec 3 1], [Dbl.dec 21 1, Dbl.dec 6 1]]
  nBnd := [0, 0, 0, 1]
  dim := 2
  compliant := NSet.empty

theorem dbl_nonneg {l : List Dbl} (h : ∀ x ∈ l, 0 ≤ x.code) : ∀ x ∈ l, 0 ≤ x.value := by
  intro x hx
  rw [← Dbl.value_zero, Dbl.value_le]
  exact h x hx

theorem exTiny_crs : ValidCRS exTiny.nbC exTiny.rowPtr exTiny.colInd := checkCRS_sound (by decide)

theorem exTiny_input : RoundedInput exTiny Dbl.value Dbl.Finite (2 ^ 53) 2 where
  crs := exTiny_crs
  sizes := ⟨rfl, rfl, rfl, rfl, 2, by decide⟩
  sym := checkSym_sound exTiny_crs (by decide)
  loop := checkNoLoop_sound exTiny_crs (by decide)
  symW := exact_symW _ exTiny_crs rfl (by decide)
  finite := by decide +kernel
  weights := dbl_nonneg (by decide)
  volumes := dbl_nonneg (by decide)
  rows := by decide
  limit := by norm_num
  bnd := by decide
  alone := by decide

example (kind : ARKind) := C80_features exTiny_input kind Hash.id (cells := [2, 0, 1]) (by decide) (by decide) (by decide)
example (kind : ARKind) := C80_relative exTiny_input kind Hash.id (cells := [2, 0, 1]) (by decide) (by decide) (by decide) (by decide)

/-- the features of the example do not overflow -/
example : (match featsAfter (arOf exTiny Hash.id .external) [2, 0, 1] with
    | .ok f => decide (f.measure.Finite ∧ f.int.Finite ∧ f.ext.Finite) | _ => false) = true := by decide +kernel
example : (match featsAfter (arOf exTiny Hash.id .diameter) [2, 0, 1] with
    | .ok f => decide (f.measure.Finite ∧ f.sqDiam.Finite) | _ => false) = true := by decide +kernel
example : (match featsAfter (arOf exTiny Hash.id .maxBaryOverRadius) [2, 0, 1] with
    | .ok f => decide (∀ x ∈ f.sum, x.Finite) | _ => false) = true := by decide +kernel

/-- **C80: the external weight cannot be bounded relative to itself**: it is a difference, and for these three of four cells it
comes out negative, whereas the exact external weight is never negative.  With `EXTERNAL_WEIGHTS` this
is the aspect ratio, and the smallest one is preferred. -/
theorem C80_cancellation :
    ∃ f, featsAfter (arOf exTiny Hash.id .external) [0, 1, 2] = .ok f ∧ f.ext.Finite ∧ f.ext.value < 0 ∧
      0 ≤ externalWeight (exTiny.exact Dbl.value) (NSet.ofList [0, 1, 2]) := by
  obtain ⟨f, h1, _⟩ := C80_features exTiny_input .external Hash.id (cells := [0, 1, 2]) (by decide) (by decide) (by decide)
  have h2 : (match featsAfter (arOf exTiny Hash.id .external) [0, 1, 2] with
    | .ok f => decide (f.ext.Finite ∧ f.ext.code < 0) | _ => false) = true := by decide +kernel
  rw [h1] at h2
  obtain ⟨h3, h4⟩ := of_decide_eq_true h2
  refine ⟨f, h1, h3, ?_, external_nonneg dbl_arith exTiny_input (by decide)⟩
  rw [← Dbl.value_zero, Dbl.value_lt]
  exact h4

end CoMMA
