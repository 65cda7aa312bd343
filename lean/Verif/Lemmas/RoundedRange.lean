import Verif.Lemmas.RoundedShape
/-! # Features do not overflow unless the exact ones are large -/

set_option linter.unusedSectionVars false

namespace CoMMA

variable {W : Type} [Num W] {v : W → ℚ} {Fin : W → Prop} {u η L : ℚ} {N D P : Nat} {g : Graph W}

/-- What is assumed: `P` operations change a number by at most one half, counts are at most `2 ^ 53`, weights are finite. -/
structure RangeInput (g : Graph W) (v : W → ℚ) (Fin : W → Prop) (u η L : ℚ) (N D P : Nat) : Prop where
  arith : RoundedArith W v Fin u η N
  range : NoOverflow W v Fin u L
  input : RoundedInput g v Fin N D
  weights : ∀ w ∈ g.values, Fin w
  counts : N ≤ 2 ^ 53
  two : 2 ≤ N
  grow : (1 + u) ^ P ≤ 3 / 2
  tiny : P * η ≤ 1
  rows : D + 3 ≤ P

/-- numbers from which nothing overflows -/
def Modest (L x : ℚ) : Prop := 2 ^ 60 * (x + 1) ≤ L

theorem Modest.mono {x y : ℚ} (h : Modest L y) (hxy : x ≤ y) : Modest L x := by
  unfold Modest at *; linarith

section
variable (hC : RangeInput g v Fin u η L N D P)
include hC

theorem unit_le : u ≤ 1 / 2 := by
  have h0 := hC.arith.nonneg
  have h1 := grow_ge h0 P
  have h2 := hC.grow
  have h3 := hC.rows
  have : (1 : ℚ) ≤ P := by exact_mod_cast (by omega : 1 ≤ P)
  have := mul_le_mul_of_nonneg_right this h0
  linarith

theorem eta_le : η ≤ 1 := by
  have h0 := hC.arith.small
  have h3 := hC.rows
  have h4 := hC.tiny
  have : (1 : ℚ) ≤ P := by exact_mod_cast (by omega : 1 ≤ P)
  have := mul_le_mul_of_nonneg_right this h0
  linarith

theorem grow_half {p : Nat} (hp : p ≤ P) : (1 + u) ^ p ≤ 3 / 2 :=
  (pow_le_pow_right₀ (by have := hC.arith.nonneg; linarith) hp).trans hC.grow

theorem near_size {p c : Nat} {x A S : ℚ} (h : Near u p (c * η) x A S) (hA : |A| ≤ S) (hp : p ≤ P) (hc : c ≤ P) : |x| ≤ 2 * S + 2 := by
  have h1 := one_le_grow hC.arith.nonneg p
  have h2 := grow_half hC hp
  unfold Near at h
  have h3 : |x| ≤ |x - A| + |A| := by
    have := abs_add_le (x - A) A
    simpa using this
  have hS : 0 ≤ S := (abs_nonneg _).trans hA
  have h4 : ((1 + u) ^ p - 1) * S ≤ 1 / 2 * S := mul_le_mul_of_nonneg_right (by linarith) hS
  have h5 : (c : ℚ) * η ≤ 1 := by
    refine le_trans (mul_le_mul_of_nonneg_right ?_ hC.arith.small) hC.tiny
    exact_mod_cast hc
  have h6 : 0 ≤ (c : ℚ) * η := mul_nonneg (by positivity) hC.arith.small
  have h7 : (1 + u) ^ p * (c * η) ≤ 3 / 2 * 1 := mul_le_mul h2 h5 h6 (by norm_num)
  linarith

theorem fin_zero : Fin (Num.ofNat 0 : W) := (hC.arith.count 0 (by omega)).1

theorem rounded_size {x y : ℚ} (h : |y - x| ≤ u * |x| + η) : |y| ≤ 2 * |x| + 1 := by
  have h1 := unit_le hC
  have h2 := eta_le hC
  have h3 : |y| ≤ |y - x| + |x| := by
    have := abs_add_le (y - x) x
    simpa using this
  have h4 := mul_le_mul_of_nonneg_right h1 (abs_nonneg x)
  have := abs_nonneg x
  linarith

theorem fin_foldl : ∀ (l : List W) (s : W), Fin s → (∀ a ∈ l, Fin a) →
    (1 + u) ^ l.length * (|v s| + (l.map (fun a => |v a|)).sum) ≤ L → Fin (l.foldl Num.add s) := by
  have hu := hC.arith.nonneg
  intro l
  induction l with
  | nil => intro s hs _ _; exact hs
  | cons a l ih =>
    intro s hs hl h
    have g0 : (0 : ℚ) ≤ (l.map (fun a => |v a|)).sum := List.sum_nonneg (by intro x hx; obtain ⟨y, _, rfl⟩ := List.mem_map.1 hx; positivity)
    rw [List.map_cons, List.sum_cons, List.length_cons, pow_succ] at h
    have hg1 := one_le_grow hu l.length
    have hf : Fin (Num.add s a) := by
      refine hC.range.add _ _ hs (hl a (by simp)) ((abs_add_le _ _).trans (le_trans ?_ h))
      have h5 : 1 ≤ (1 + u) ^ l.length * (1 + u) := one_le_mul_of_one_le_of_one_le hg1 (by linarith)
      have h6 := mul_le_mul_of_nonneg_right h5 (show 0 ≤ |v s| + (|v a| + (l.map (fun a => |v a|)).sum) by positivity)
      linarith
    rw [List.foldl_cons]
    refine ih _ hf (fun b hb => hl b (by simp [hb])) (le_trans ?_ h)
    rw [mul_assoc]
    refine mul_le_mul_of_nonneg_left ?_ (by linarith)
    have h1 := hC.arith.add _ _ hf
    have h2 := abs_add_le (v (Num.add s a) - (v s + v a)) (v s + v a)
    have h3 := abs_add_le (v s) (v a)
    rw [sub_add_cancel] at h2
    have h4 := mul_le_mul_of_nonneg_left h3 hu
    have h6 : 1 * (l.map (fun a => |v a|)).sum ≤ (1 + u) * (l.map (fun a => |v a|)).sum :=
      mul_le_mul_of_nonneg_right (by linarith) g0
    linarith

theorem face_fin {i : Nat} {e : Nat × W} (he : e ∈ facesOf g i) : Fin e.2 := by
  apply hC.weights
  unfold facesOf at he
  have := (List.of_mem_zip he).2
  unfold entriesOfRow at this
  split at this
  · exact List.mem_of_mem_drop (List.mem_of_mem_take this)
  · cases this

theorem fin_weightTo {i : Nat} (hi : i < g.nbC) (p : Nat → Bool) (h : Modest L (weightTo (g.exact v) i p)) : Fin (weightTo g i p) := by
  have h0 := exact_weightTo_nonneg hC.arith hC.input i p
  unfold Modest at h
  rw [exact_weightTo] at h0 h
  unfold weightTo sumW
  have hr := hC.rows
  have hlen : (((facesOf g i).filter (fun e => p e.1)).map (·.2)).length ≤ D := by
    rw [List.length_map]
    exact (List.length_filter_le _ _).trans (faces_le hC.arith hC.input hi)
  refine fin_foldl hC _ _ (fin_zero hC) ?_ ?_
  · intro a ha
    obtain ⟨e, he, rfl⟩ := List.mem_map.1 ha
    exact face_fin hC (List.mem_filter.1 he).1
  · have e1 : ((((facesOf g i).filter (fun e => p e.1)).map (·.2)).map (fun a => |v a|)) = (((facesOf g i).filter (fun e => p e.1)).map (fun e => v e.2)) := by
      rw [List.map_map]
      apply List.map_congr_left
      intro e he
      exact abs_of_nonneg (face_nonneg hC.arith hC.input (List.mem_filter.1 he).1)
    rw [e1, hC.arith.zero, abs_zero, zero_add]
    have h2 := grow_half hC (show (((facesOf g i).filter (fun e => p e.1)).map (·.2)).length ≤ P by omega)
    have := mul_le_mul_of_nonneg_right h2 h0
    linarith

theorem fin_reduce {i : Nat} (hi : i < g.nbC) (h : Modest L (weightTo (g.exact v) i (fun _ => true))) :
    Fin (Num.reduce (rowL g.rowPtr g.values i)) := by
  have h0 := exact_weightTo_nonneg hC.arith hC.input i (fun _ => true)
  unfold Modest at h
  rw [exact_all hC.arith hC.input hi] at h0 h
  have hr := hC.rows
  have hlen := (weights_eq hC.input.crs hC.input.sizes.values hi).2
  have hrow := hC.input.rows i hi
  rw [rowOf_eq hC.input.crs hi] at hrow
  have hmem : ∀ a ∈ rowL g.rowPtr g.values i, a ∈ g.values := by
    intro a ha
    rw [← entries_eq hC.input.crs hC.input.sizes.values hi] at ha
    unfold entriesOfRow at ha
    split at ha
    · exact List.mem_of_mem_drop (List.mem_of_mem_take ha)
    · cases ha
  refine hC.range.reduce _ (fun a ha => hC.weights a (hmem a ha)) ?_
  have e1 : (rowL g.rowPtr g.values i).map (fun a => |v a|) = (rowL g.rowPtr g.values i).map v := by
    apply List.map_congr_left
    intro a ha
    exact abs_of_nonneg (hC.input.weights a (hmem a ha))
  rw [e1]
  have h2 := grow_half hC (show (rowL g.rowPtr g.values i).length ≤ P by omega)
  have := mul_le_mul_of_nonneg_right h2 h0
  linarith

theorem fin_boundary {i : Nat} (hi : i < g.nbC) (h : Modest L (exactTotal g v i)) {x : W} (hx : g.boundaryWeight i = .ok x) : Fin x := by
  have hu := hC.arith.nonneg
  have hη := hC.arith.small
  have hg := hC.input
  have hR := hC.arith
  have hb : i < g.nBnd.length := by rw [hg.sizes.bnd]; exact hi
  have hge : (g.nBnd[i]?).getD 0 = g.nBnd[i] := by rw [List.getElem?_eq_getElem hb]; rfl
  have halone := hg.alone i hi
  have hbN := hg.bnd _ (List.getElem_mem hb)
  have h0 := exact_weightTo_nonneg hR hg i (fun _ => true)
  have hb0 := exact_boundary_nonneg hR hg hi
  have hW : weightTo (g.exact v) i (fun _ => true) ≤ exactTotal g v i := by unfold exactTotal; linarith
  have hT : 0 ≤ exactTotal g v i := h0.trans hW
  rw [hge] at halone
  unfold Graph.boundaryWeight at hx
  rw [rd_of_lt hb, ok_bind] at hx
  by_cases hz : g.nBnd[i] = 0
  · rw [if_pos hz] at hx
    cases hx
    exact fin_zero hC
  · rw [if_neg hz] at hx
    obtain ⟨n, hn, hn'⟩ := nbNeighs_ok hg.crs hi
    rw [(weights_eq hg.crs hg.sizes.values hi).1, ok_bind, hn, ok_bind] at hx
    cases hx
    have hnD : n ≤ D := by have := hg.rows i hi; rw [rowOf_eq hg.crs hi, ← hn'] at this; exact this
    have hn0 : n ≠ 0 := by
      intro hh
      apply halone hz
      rw [rowOf_eq hg.crs hi]
      exact List.eq_nil_of_length_eq_zero (by omega)
    have hn1 : (1 : ℚ) ≤ (n : ℚ) := by exact_mod_cast Nat.pos_of_ne_zero hn0
    have hlim := hg.limit
    obtain ⟨c1, c2⟩ := hR.count n (by omega)
    obtain ⟨b1, b2⟩ := hR.count g.nBnd[i] hbN
    have f2 := fin_reduce hC hi (h.mono hW)
    have r1 := near_reduce hR hg hi f2
    have r2 := near_size hC (c := 0) (by simpa using r1) (abs_of_nonneg h0).le (by have := hC.rows; omega) (by omega)
    have hbq : (g.nBnd[i] : ℚ) ≤ 2 ^ 53 := by
      have : g.nBnd[i] ≤ 2 ^ 53 := hbN.trans hC.counts
      exact_mod_cast this
    have hbp : (0 : ℚ) ≤ (g.nBnd[i] : ℚ) := by positivity
    have m1 : |v (Num.ofNat g.nBnd[i] : W) * v (Num.reduce (rowL g.rowPtr g.values i))| ≤ 2 ^ 53 * (2 * exactTotal g v i + 2) := by
      rw [b2, abs_mul, abs_of_nonneg hbp]
      exact mul_le_mul hbq (r2.trans (by linarith)) (abs_nonneg _) (by norm_num)
    unfold Modest at h
    have f3 := hC.range.mul _ _ b1 f2 (m1.trans (by linarith))
    have m2 := rounded_size hC (hR.mul _ _ (Or.inr f2) b1 f3).2
    refine hC.range.div _ _ f3 c1 (by rw [c2]; linarith) ?_
    rw [c2, abs_div, abs_of_pos (show (0 : ℚ) < n by linarith)]
    refine (div_le_self (abs_nonneg _) hn1).trans ?_
    linarith

theorem fin_total {i : Nat} (hi : i < g.nbC) (h : Modest L (exactTotal g v i)) {x : W} (hx : g.totalWeight i = .ok x) : Fin x := by
  have hg := hC.input
  have hR := hC.arith
  have hr := hC.rows
  obtain ⟨b, h1, h2⟩ := near_boundary hR hg hi
  unfold Graph.totalWeight at hx
  rw [(weights_eq hg.crs hg.sizes.values hi).1, ok_bind, h1, ok_bind] at hx
  cases hx
  have h0 := exact_weightTo_nonneg hR hg i (fun _ => true)
  have hb0 := exact_boundary_nonneg hR hg hi
  have hW : weightTo (g.exact v) i (fun _ => true) ≤ exactTotal g v i := by unfold exactTotal; linarith
  have f1 := fin_reduce hC hi (h.mono hW)
  have f2 := fin_boundary hC hi h h1
  have r1 := near_size hC (c := 0) (by simpa using near_reduce hR hg hi f1) (abs_of_nonneg h0).le (by omega) (by omega)
  have r2 := near_size hC (c := 2) (by simpa using h2 f2) (abs_of_nonneg hb0).le (by omega) (by omega)
  refine hC.range.add _ _ f1 f2 ((abs_add_le _ _).trans ((add_le_add r1 r2).trans ?_))
  unfold Modest exactTotal at h
  linarith

/-! ### Features -/

/-- features that do not overflow -/
structure FinFeats (g : Graph W) (v : W → ℚ) (Fin : W → Prop) (L : ℚ) (kind : ARKind) (s : NSet) (f : Feats W) : Prop where
  measure : Modest L (measureOf (g.exact v) s) → Fin f.measure
  int : kind.weights = true → Modest L (internalWeight (g.exact v) s) → Fin f.int
  ext : kind.weights = true → Modest L (externalWeight (g.exact v) s + 4 * internalWeight (g.exact v) s) → Fin f.ext

theorem fin_init {kind : ARKind} {i : Nat} (hi : i < g.nbC) {f : Feats W} (h : Feats.init g i = .ok f) :
    FinFeats g v Fin L kind (NSet.single i) f := by
  have hg := hC.input
  have hR := hC.arith
  obtain ⟨t, t1, t2⟩ := near_total hR hg hi
  unfold Feats.init at h
  rw [rd_volume hg.sizes hi, ok_bind, t1, ok_bind, totalFaces_eq hg.crs hg.sizes hi, ok_bind, rd_center hg.sizes hi, ok_bind] at h
  cases h
  refine ⟨fun _ => fin_volume hR hg hi, fun _ _ => fin_zero hC, fun _ hm => fin_total hC hi (hm.mono ?_) t1⟩
  have hE : externalWeight (g.exact v) (NSet.single i) = exactTotal g v i := by
    rw [single_insert hR hg, exact_step hR hg hi (by exact not_mem_none hR hg _),
      weightTo_none (fun e _ => by rw [NSet.has_false_iff]; exact not_mem_none hR hg _)]
    show sumOver [] _ + _ - 2 * ((0 : Nat) : ℚ) = _
    unfold sumOver
    rw [rat_sum]
    simp
  have hI := internal_nonneg hR hg (NSet.single i)
  rw [hE]
  linarith

theorem basic_values {i : Nat} (hi : i < g.nbC) {cc : NSet} (hni : i ∉ cc) {f : Feats W} {cw uf : Bool} {r : Nat × Feats W}
    (h : updateBasic cw uf g i f cc = .ok r) :
    r.2.measure = Num.add f.measure (volumeAt g i) ∧ (cw = true → ∃ t, g.totalWeight i = .ok t ∧
      r.2.int = Num.add f.int (weightTo g i (fun n => cc.has n)) ∧
      r.2.ext = Num.sub (Num.add f.ext t) (Num.mul (Num.ofNat 2) (weightTo g i (fun n => cc.has n)))) := by
  have hg := hC.input
  unfold updateBasic at h
  rw [rd_volume hg.sizes hi, ok_bind] at h
  obtain ⟨⟨sw, sh⟩, h1, h⟩ := bind_ok_iff.1 h
  have hsw : sw = weightTo g i (fun n => cc.has n) := by
    obtain ⟨r', e1, e2⟩ := (sharedFaces_weight hg.crs hg.sizes hi hni).eq
    rw [h1] at e1; cases e1; exact e2
  obtain ⟨d, h2, h⟩ := bind_ok_iff.1 h
  have key : d.measure = Num.add f.measure (volumeAt g i) ∧ (cw = true → ∃ t, g.totalWeight i = .ok t ∧
      d.int = Num.add f.int (weightTo g i (fun n => cc.has n)) ∧
      d.ext = Num.sub (Num.add f.ext t) (Num.mul (Num.ofNat 2) (weightTo g i (fun n => cc.has n)))) := by
    unfold withWeights updateWeights at h2
    cases cw with
    | false =>
      simp only [Bool.false_eq_true, if_false] at h2
      cases h2
      exact ⟨rfl, fun hh => absurd hh (by simp)⟩
    | true =>
      simp only [if_true] at h2
      obtain ⟨t, t1, t2⟩ := near_total hC.arith hg hi
      rw [t1] at h2
      cases h2
      refine ⟨rfl, fun _ => ⟨t, t1, ?_, ?_⟩⟩
      · show Num.add f.int sw = _
        rw [hsw]
      · show Num.sub (Num.add f.ext t) (Num.mul (Num.ofNat 2) sw) = _
        rw [hsw]
  cases uf with
  | false =>
    simp only [Bool.false_eq_true, if_false] at h
    cases h
    exact key
  | true =>
    simp only [if_true] at h
    obtain ⟨m, _, h⟩ := bind_ok_iff.1 h
    cases h
    exact key

theorem fin_basic {kind : ARKind} {i : Nat} (hi : i < g.nbC) {cc : NSet} (hcc : ∀ y ∈ cc, y < g.nbC) (hni : i ∉ cc) {f : Feats W}
    (hf : NearFeats g v Fin u η D kind cc f) (hF : FinFeats g v Fin L kind cc f) (hP : D + 2 * cc.card + 1 ≤ P) {cw uf : Bool}
    (hcw : cw = kind.weights) {r : Nat × Feats W} (h : updateBasic cw uf g i f cc = .ok r) :
    FinFeats g v Fin L kind (cc.insert i) r.2 := by
  have hg := hC.input
  have hR := hC.arith
  have hr := hC.rows
  have hη := hR.small
  obtain ⟨h1, h2⟩ := basic_values hC hi hni h
  have hv := volume_nonneg hR hg hi
  rw [exact_volume v hg.sizes hi] at hv
  have hM := measure_nonneg hR hg hcc
  have w0 := exact_weightTo_nonneg hR hg i (fun n => cc.has n)
  have t0 := exactTotal_nonneg hR hg hi
  have hI := internal_nonneg hR hg cc
  have hE := external_nonneg hR hg hcc
  have em : measureOf (g.exact v) (cc.insert i) = measureOf (g.exact v) cc + v (volumeAt g i) := by
    unfold measureOf
    rw [sumOver_insert rat_comm hni, exact_volume v hg.sizes hi]
    exact add_comm _ _
  have ei : internalWeight (g.exact v) (cc.insert i) = internalWeight (g.exact v) cc + weightTo (g.exact v) i (fun n => cc.has n) :=
    internalWeight_insert rat_comm hg.symW hni
  have ee := exact_step hR hg hi hni
  refine ⟨fun hm => ?_, fun hk hm => ?_, fun hk hm => ?_⟩
  · rw [em] at hm
    rw [h1]
    have f1 := hF.measure (hm.mono (by linarith))
    have n1 := near_size hC (c := 0) (by simpa using hf.measure f1) (abs_of_nonneg hM).le (by omega) (by omega)
    refine hC.range.add _ _ f1 (fin_volume hR hg hi) ((abs_add_le _ _).trans ?_)
    rw [abs_of_nonneg hv]
    unfold Modest at hm
    linarith
  · rw [ei] at hm
    obtain ⟨t, t1, h3, _⟩ := h2 (hcw.trans hk)
    rw [h3]
    have f1 := hF.int hk (hm.mono (by linarith))
    have f2 := fin_weightTo hC hi _ (hm.mono (by linarith))
    have n1 := near_size hC (c := 0) (by simpa using hf.int hk f1) (abs_of_nonneg hI).le (by omega) (by omega)
    have n2 := near_size hC (c := 0) (by simpa using near_weightTo hR hg hi _ f2) (abs_of_nonneg w0).le (by omega) (by omega)
    refine hC.range.add _ _ f1 f2 ((abs_add_le _ _).trans ?_)
    unfold Modest at hm
    linarith
  · have eS : externalWeight (g.exact v) (cc.insert i) + 4 * internalWeight (g.exact v) (cc.insert i) =
        externalWeight (g.exact v) cc + 4 * internalWeight (g.exact v) cc + exactTotal g v i + 2 * weightTo (g.exact v) i (fun n => cc.has n) := by
      rw [ee, ei]; ring
    rw [eS] at hm
    obtain ⟨t, t1, _, h4⟩ := h2 (hcw.trans hk)
    obtain ⟨t', t1', t2⟩ := near_total hR hg hi
    rw [t1] at t1'
    cases t1'
    rw [h4]
    have f1 := hF.ext hk (hm.mono (by linarith))
    have f2 := fin_weightTo hC hi _ (hm.mono (by linarith))
    have f3 := fin_total hC hi (hm.mono (by linarith)) t1
    have n1 := near_size hC (c := 2 * cc.card) (by have := hf.ext hk f1; push_cast; exact this) (by rw [abs_of_nonneg hE]; linarith) (by omega) (by omega)
    have n2 := near_size hC (c := 0) (by simpa using near_weightTo hR hg hi _ f2) (abs_of_nonneg w0).le (by omega) (by omega)
    have n3 := near_size hC (c := 2) (by simpa using t2 f3) (abs_of_nonneg t0).le (by omega) (by omega)
    unfold Modest at hm
    have f4 := hC.range.add _ _ f1 f3 ((abs_add_le _ _).trans (by linarith))
    obtain ⟨b1, b2⟩ := hR.count 2 hC.two
    have a2 : |v (Num.ofNat 2 : W) * v (weightTo g i (fun n => cc.has n))| ≤ 2 * (2 * weightTo (g.exact v) i (fun n => cc.has n) + 2) := by
      rw [b2, abs_mul]
      simp only [Nat.cast_ofNat, Nat.abs_ofNat]
      linarith
    have f5 := hC.range.mul _ _ b1 f2 (a2.trans (by linarith))
    have e5 := (hR.two _ f5).2
    have n4 := rounded_size hC (y := v (Num.add f.ext t)) (x := v f.ext + v t) (by have := hR.add _ _ f4; linarith)
    have n5 := abs_add_le (v f.ext) (v t)
    refine hC.range.sub _ _ f4 f5 ((abs_sub _ _).trans ?_)
    rw [e5, abs_mul]
    simp only [Nat.abs_ofNat]
    linarith

/-! ### Distances -/

theorem fin_squares : ∀ (a b : List W) (x : W) (p c : Nat) (A : ℚ), 3 ≤ p → 0 ≤ A → Fin x → Near u p (c * η) (v x) A A →
    (∀ y ∈ a, Fin y) → (∀ y ∈ b, Fin y) → a.length = b.length → p + a.length ≤ P → c + a.length ≤ P →
    Modest L (A + (List.zipWith (fun x y => (v x - v y) * (v x - v y)) a b).sum) →
    Fin ((List.zipWith (fun x y => Num.mul (Num.sub x y) (Num.sub x y)) a b).foldl Num.add x) := by
  have hR := hC.arith
  have hu := hR.nonneg
  have hη := hR.small
  intro a
  induction a with
  | nil => intro b x p c A _ _ hx _ _ _ _ _ _ _; exact hx
  | cons y a ih =>
    intro b x p c A hp hA hx hn ha hb hl hpP hcP hm
    cases b with
    | nil => simp at hl
    | cons z b =>
      rw [List.zipWith_cons_cons, List.foldl_cons]
      rw [List.zipWith_cons_cons, List.sum_cons] at hm
      rw [List.length_cons] at hpP hcP
      have s0 : 0 ≤ (v y - v z) * (v y - v z) := mul_self_nonneg _
      have r0 : 0 ≤ (List.zipWith (fun x y => (v x - v y) * (v x - v y)) a b).sum := by
        refine List.sum_nonneg ?_
        intro q hq
        obtain ⟨k, hk, rfl⟩ := List.getElem_of_mem hq
        rw [List.getElem_zipWith]
        exact mul_self_nonneg _
      have hm' := hm
      unfold Modest at hm
      have habs : |v y - v z| ≤ (v y - v z) * (v y - v z) + 1 := by
        rw [← abs_mul_abs_self (v y - v z)]
        nlinarith [abs_nonneg (v y - v z), mul_self_nonneg (|v y - v z| - 1)]
      have f1 : Fin (Num.sub y z) := hC.range.sub _ _ (ha y (by simp)) (hb z (by simp)) (by linarith)
      have n1 : |v (Num.sub y z)| ≤ 2 * |v y - v z| := by
        have h1 := (hR.sub _ _ f1).2.2
        have h2 : |v (Num.sub y z)| ≤ |v (Num.sub y z) - (v y - v z)| + |v y - v z| := by
          have := abs_add_le (v (Num.sub y z) - (v y - v z)) (v y - v z)
          simpa using this
        have h3 := mul_le_mul_of_nonneg_right (unit_le hC) (abs_nonneg (v y - v z))
        have := abs_nonneg (v y - v z)
        linarith
      have f2 : Fin (Num.mul (Num.sub y z) (Num.sub y z)) := by
        refine hC.range.mul _ _ f1 f1 ?_
        rw [abs_mul]
        refine (mul_le_mul n1 n1 (abs_nonneg _) (by positivity)).trans ?_
        have : 2 * |v y - v z| * (2 * |v y - v z|) = 4 * (|v y - v z| * |v y - v z|) := by ring
        rw [this, abs_mul_abs_self]
        linarith
      have n2 := near_square hR hC.input f2
      have z2 := near_size hC (c := 1) (by simpa using n2) (abs_of_nonneg s0).le (by omega) (by omega)
      have z1 := near_size hC hn (abs_of_nonneg hA).le (by omega) (by omega)
      have f3 : Fin (Num.add x (Num.mul (Num.sub y z) (Num.sub y z))) :=
        hC.range.add _ _ hx f2 ((abs_add_le _ _).trans (by linarith))
      refine ih b _ (p + 1) (c + 1) (A + (v y - v z) * (v y - v z)) (by omega) (add_nonneg hA s0) f3 ?_ (fun w hw => ha w (by simp [hw]))
        (fun w hw => hb w (by simp [hw])) (by simpa using hl) (by omega) (by omega) (by rw [add_assoc]; exact hm')
      have t := hn.add hu (n2.mono hu hp le_rfl hη le_rfl s0)
      have := t.round hu (abs_of_nonneg (add_nonneg hA s0)).le le_rfl (y := v (Num.add x (Num.mul (Num.sub y z) (Num.sub y z))))
        (by rw [add_zero]; exact hR.add _ _ f3)
      refine this.mono hu le_rfl (le_of_eq (by push_cast; ring)) ?_ le_rfl (add_nonneg hA s0)
      have : 0 ≤ (c : ℚ) * η := by positivity
      linarith

theorem fin_dist {a b : List W} (ha : ∀ y ∈ a, Fin y) (hb : ∀ y ∈ b, Fin y) (hl : a.length = b.length) (hP : a.length + 3 ≤ P)
    (hm : Modest L (dist2 (a.map v) (b.map v))) : Fin (dist2 a b) := by
  have e : dist2 (a.map v) (b.map v) = (List.zipWith (fun x y => (v x - v y) * (v x - v y)) a b).sum := by
    unfold dist2
    rw [rat_sumUp, List.zipWith_map]
    rfl
  refine fin_squares hC a b (Num.ofNat 0) 3 0 0 le_rfl le_rfl (fin_zero hC) ?_ ha hb hl (by omega) (by omega) ?_
  · rw [hC.arith.zero]
    exact Near.refl hC.arith.nonneg 3 (by simp) le_rfl
  · rw [zero_add, ← e]; exact hm

theorem fin_diam {dd : Nat} (hd : ∀ c ∈ g.centers, c.length = dd) (hP : dd + 3 ≤ P) {s : NSet} (hs : ∀ i ∈ s, i < g.nbC) {m : W} {M : ℚ}
    (h1 : LargestFrom Num.lmin (PairDist g s) m) (h2 : LargestFrom Num.lmin (PairDist (g.exact v) s) M) (hM : Modest L M) : Fin m := by
  have hR := hC.arith
  have hg := hC.input
  rcases h1.1 with rfl | ⟨i, hi, j, hj, hij, rfl⟩
  · refine hR.bound _ _ hR.limits.1 ?_ ?_
    · rw [hR.limits.2.1]
      have : (0 : ℚ) ≤ (Num.lmin : Dbl).value := by rw [← Dbl.value_zero, Dbl.value_le]; decide
      exact this
    · rw [hR.limits.2.1, hR.limits.2.2]
      have : (Num.lmin : Dbl).value ≤ (Num.lmax : Dbl).value := by rw [Dbl.value_le]; decide
      exact this
  · have hli := center_length hg.sizes hd (hs i hi)
    have hlj := center_length hg.sizes hd (hs j hj)
    refine fin_dist hC ?_ ?_ (by rw [hli, hlj]) (by omega) ?_
    · intro y hy
      obtain ⟨k, hk, rfl⟩ := List.getElem_of_mem hy
      exact fin_coord hR hg (hs i hi) (List.getElem?_eq_getElem hk)
    · intro y hy
      obtain ⟨k, hk, rfl⟩ := List.getElem_of_mem hy
      exact fin_coord hR hg (hs j hj) (List.getElem?_eq_getElem hk)
    · rw [← exact_center, ← exact_center]
      refine hM.mono ?_
      have := h2.2.2 _ ⟨i, hi, j, hj, hij, rfl⟩
      simpa [Num.lt] using this

theorem fin_compute {kind : ARKind} (hh : Hash) {i : Nat} (hi : i < g.nbC) {cc : NSet} (hcc : ∀ y ∈ cc, y < g.nbC) (hni : i ∉ cc)
    {f : Feats W} (hf : NearFeats g v Fin u η D kind cc f) (hF : FinFeats g v Fin L kind cc f) (hP : D + 2 * cc.card + 1 ≤ P)
    {r : Nat × W × Feats W} (h : (arOf g hh kind).compute i f cc = .ok r) : FinFeats g v Fin L kind (cc.insert i) r.2.2 := by
  unfold arOf at h
  simp only at h
  by_cases hb : kind.bary = true
  · rw [if_pos hb] at h
    have hw : kind.weights = false := by cases kind <;> first | rfl | exact absurd hb (by simp [ARKind.bary])
    unfold arBary at h
    obtain ⟨b, h1, h⟩ := bind_ok_iff.1 h
    obtain ⟨y, h2, h⟩ := bind_ok_iff.1 h
    have k := fin_basic hC hi hcc hni hf hF hP hw.symm h1
    have done : ∀ nf : Feats W, nf.measure = b.2.measure → FinFeats g v Fin L kind (cc.insert i) nf := by
      intro nf e1
      exact ⟨by rw [e1]; exact k.measure, fun hk => absurd hk (by rw [hw]; simp), fun hk => absurd hk (by rw [hw]; simp)⟩
    split at h
    · obtain ⟨m, _, h⟩ := bind_ok_iff.1 h
      cases h
      exact done _ rfl
    · obtain ⟨m, _, h⟩ := bind_ok_iff.1 h
      cases h
      exact done _ rfl
  · rw [if_neg hb] at h
    by_cases hge : kind.geom = true
    · rw [if_pos hge] at h
      have hw : kind.weights = false := by cases kind <;> first | rfl | exact absurd hge (by simp [ARKind.geom])
      unfold arGeom at h
      obtain ⟨b, h1, h⟩ := bind_ok_iff.1 h
      obtain ⟨y, h2, h⟩ := bind_ok_iff.1 h
      have k := fin_basic hC hi hcc hni hf hF hP hw.symm h1
      cases h
      exact ⟨k.measure, fun hk => absurd hk (by rw [hw]; simp), fun hk => absurd hk (by rw [hw]; simp)⟩
    · rw [if_neg hge] at h
      unfold arPlain at h
      obtain ⟨b, h1, h⟩ := bind_ok_iff.1 h
      have k := fin_basic hC hi hcc hni hf hF hP rfl h1
      cases h
      exact k

end

end CoMMA
