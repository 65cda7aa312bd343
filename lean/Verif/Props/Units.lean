import Verif.Lemmas.Units
import Verif.Props.SameData
import Mathlib.Analysis.Real.Sqrt
/-! # Change of units -/

set_option linter.unusedSectionVars false

namespace CoMMA

variable {W : Type} [Num W]
variable {P : Platform} {a : Args W} {o : Outs} {n : Nat} {s s' u u' r r' : W → W}

/-- **C69.** A change of the units of weights, volumes and lengths does not change the outputs,
for all the types of aspect ratio that do not use the barycenter.  The multiplications by
constants have to be exact, and the distances (for the types with distances) and the weights
(if lines are built) to stay between the numbers from which the library starts its search for
extrema.  Missing: the two types with the barycenter, for which it is false (see
`C69_units_counterexample`). -/
theorem C69_units_partial (hm : ValidMesh a n) (hp : ValidParams P a) (hW : LawfulLt W)
    (hu : UniqueRows a.rowPtr a.colInd) (hl : NoSelfLoop a.rowPtr a.colInd) (hmode : ValidMode (graphOf a) a o n)
    (hk : a.aspect.byDistances) (hs : UnitChange s s') (hv : UnitChange u u') (hr : UnitChange r r')
    (hd : a.aspect.usesCenters → DistancesInRange a.centers ∧ DistancesInRange (a.inUnits s u r).centers)
    (hlines : a.isAniso = true → a.buildLines = true →
      RootScales r ∧ WeightsInRange a.values ∧ WeightsInRange (a.inUnits s u r).values) :
    agglomerateOneLevel P (a.inUnits s u r) o = agglomerateOneLevel P a o := by
  have hm' : ValidMesh (a.withData (a.values.map s) (a.volumes.map u) (a.centers.map (fun c => c.map r)) a.prio) n := by
    obtain ⟨D, hD⟩ := hm.coords
    refine ⟨hm.pos, hm.crs, hm.sym, hm.uniq, ?_, ?_, ?_, hm.prio, hm.bnd, D, ?_⟩
    · show (a.values.map s).length = _
      rw [List.length_map]
      exact hm.values
    · show (a.volumes.map u).length = _
      rw [List.length_map]
      exact hm.volumes
    · show (a.centers.map (fun c => c.map r)).length = _
      rw [List.length_map]
      exact hm.centers
    · intro c hc
      obtain ⟨d, h1, rfl⟩ := List.mem_map.1 (show c ∈ a.centers.map (fun c => c.map r) from hc)
      rw [List.length_map]
      exact hD d h1
  have hp' : ValidParams P (a.withData (a.values.map s) (a.volumes.map u) (a.centers.map (fun c => c.map r)) a.prio) :=
    ⟨hp.dim, hp.minCard, hp.goalCard, hp.maxCard, hp.iter, hp.thresh, hp.order, hp.aspect, hp.onePoint⟩
  have hg : GraphScaled s u r (graphOf a)
      (graphOf (a.withData (a.values.map s) (a.volumes.map u) (a.centers.map (fun c => c.map r)) a.prio)) :=
    ⟨rfl, rfl, rfl, rfl, rfl, rfl, rfl, rfl⟩
  have hb : a.aspect.bary = false := by
    rcases hk with ⟨k1, k2⟩
    cases h : a.aspect <;> simp [h] at k1 k2 <;> rfl
  refine same_call hm hp hm' hp' hW hu hl hmode ⟨rfl, fun _ => rfl, fun h1 h2 => ?_⟩
    (hg.ratios hs hv hr (meshSizes hm) hb hp.aspect (fun h => hd ?_) P.hash)
  · obtain ⟨h3, h4, h5⟩ := hlines h1 h2
    exact ⟨hg.tagged hs hv hr hW h4 h5, _, hg.growth hs hr h3 _⟩
  · cases ha : a.aspect <;> simp [ha, ARKind.geom] at h <;> simp [ARKind.usesCenters]

/-! ### Real numbers: every positive constant is a change of unit -/

/-- the real numbers, with bounds for the searches for extrema -/
@[reducible] noncomputable def realNum (lo hi : ℝ) : Num ℝ where
  lt a b := decide (a < b)
  le a b := decide (a ≤ b)
  eq a b := decide (a = b)
  neg a := -a
  abs a := |a|
  add a b := a + b
  sub a b := a - b
  mul a b := a * b
  div a b := a / b
  sqrt a := Real.sqrt a
  reduce l := l.sum
  ofNat n := n
  ofInt n := n
  lmin := lo
  lmax := hi
  c090 := 9 / 10
  cdev := 9396926207859084 / 10 ^ 16
  ctol := 1 / 10 ^ 12

theorem real_rescales {lo hi c : ℝ} (hc : 0 < c) : @Rescales ℝ (realNum lo hi) (fun x => c * x) (fun x => c⁻¹ * x) :=
  let _ := realNum lo hi
  { add := fun x y => (mul_add c x y).symm
    sub := fun x y => (mul_sub c x y).symm
    mulLeft := fun x y => mul_assoc c x y
    mulRight := fun x y => by show x * (c * y) = c * (x * y); ring
    divLeft := fun x y => mul_div_assoc c x y
    divRight := fun x y => by show x / (c * y) = c⁻¹ * (x / y); rw [div_mul_eq_div_div, div_right_comm]; ring
    reduce := fun l => by
      show (l.map (fun x => c * x)).sum = c * l.sum
      rw [List.sum_map_mul_left, List.map_id']
    lt := fun x y => by
      show decide (c * x < c * y) = decide (x < y)
      rw [decide_eq_decide]
      exact mul_lt_mul_iff_right₀ hc
    zero := by show c * ((0 : Nat) : ℝ) = ((0 : Nat) : ℝ); simp
    inv := fun x => by show c * (c⁻¹ * x) = x; rw [← mul_assoc, mul_inv_cancel₀ hc.ne', one_mul] }

theorem real_unitChange {lo hi c : ℝ} (hc : 0 < c) : @UnitChange ℝ (realNum lo hi) (fun x => c * x) (fun x => c⁻¹ * x) := by
  refine ⟨real_rescales hc, ?_⟩
  have := real_rescales (lo := lo) (hi := hi) (inv_pos.2 hc)
  rwa [inv_inv] at this

theorem real_roots {lo hi c : ℝ} (hc : 0 < c) : @RootScales ℝ (realNum lo hi) (fun x => c * x) := by
  intro x
  show Real.sqrt (c * (c * x)) = c * Real.sqrt x
  rw [← mul_assoc, Real.sqrt_mul (mul_self_nonneg c), Real.sqrt_mul_self hc.le]

theorem real_lawful {lo hi : ℝ} : @LawfulLt ℝ (realNum lo hi) :=
  @LawfulLt.mk ℝ (realNum lo hi) (fun a => by simp [Num.lt])
    (fun a b c => by simp only [Num.lt, decide_eq_true_eq]; exact lt_trans)
    (fun a b => by
      simp only [Num.lt, decide_eq_false_iff_not, not_lt]
      intro h1 h2
      exact le_antisymm h2 h1)

/-- **C69.** Over the real numbers: multiplying weights, volumes and lengths by any positive
constants does not change the outputs. -/
theorem C69_real_partial {lo hi : ℝ} {a : Args ℝ} {cw cv cl : ℝ} (hw : 0 < cw) (hv : 0 < cv) (hl : 0 < cl)
    (hm : @ValidMesh ℝ (realNum lo hi) a n) (hp : @ValidParams ℝ (realNum lo hi) P a)
    (hun : UniqueRows a.rowPtr a.colInd) (hnl : NoSelfLoop a.rowPtr a.colInd)
    (hmode : @ValidMode ℝ (realNum lo hi) (graphOf a) a o n) (hk : a.aspect.byDistances)
    (hd : a.aspect.usesCenters → @DistancesInRange ℝ (realNum lo hi) a.centers ∧
      @DistancesInRange ℝ (realNum lo hi) (a.inUnits (fun x => cw * x) (fun x => cv * x) (fun x => cl * x)).centers)
    (hlines : a.isAniso = true → a.buildLines = true → (∀ w ∈ a.values, w ≤ hi ∧ cw * w ≤ hi)) :
    @agglomerateOneLevel ℝ (realNum lo hi) P (a.inUnits (fun x => cw * x) (fun x => cv * x) (fun x => cl * x)) o =
      @agglomerateOneLevel ℝ (realNum lo hi) P a o := by
  let _ := realNum lo hi
  refine C69_units_partial hm hp real_lawful hun hnl hmode hk (real_unitChange hw) (real_unitChange hv) (real_unitChange hl) hd ?_
  intro h1 h2
  have h3 := hlines h1 h2
  refine ⟨real_roots hl, ?_, ?_⟩
  · intro w hw'
    show decide (hi < w) = false
    rw [decide_eq_false_iff_not, not_lt]
    exact (h3 w hw').1
  · intro w hw'
    obtain ⟨v, hv', rfl⟩ := List.mem_map.1 (show w ∈ a.values.map (fun x => cw * x) from hw')
    show decide (hi < cw * v) = false
    rw [decide_eq_false_iff_not, not_lt]
    exact (h3 v hv').2

/-! ### The barycenter -/

theorem rat_rescales {c : Rat} (hc : 0 < c) : @Rescales Rat ratNum (fun x => c * x) (fun x => c⁻¹ * x) :=
  let _ := ratNum
  { add := fun x y => (mul_add c x y).symm
    sub := fun x y => (mul_sub c x y).symm
    mulLeft := fun x y => mul_assoc c x y
    mulRight := fun x y => by show x * (c * y) = c * (x * y); ring
    divLeft := fun x y => mul_div_assoc c x y
    divRight := fun x y => by show x / (c * y) = c⁻¹ * (x / y); rw [div_mul_eq_div_div, div_right_comm]; ring
    reduce := fun l => by
      show (l.map (fun x => c * x)).foldl (· + ·) 0 = c * l.foldl (· + ·) 0
      rw [← List.sum_eq_foldl, ← List.sum_eq_foldl, List.sum_map_mul_left, List.map_id']
    lt := fun x y => by
      show decide (c * x < c * y) = decide (x < y)
      rw [decide_eq_decide]
      exact mul_lt_mul_iff_right₀ hc
    zero := by show c * ((0 : Nat) : Rat) = ((0 : Nat) : Rat); simp
    inv := fun x => by show c * (c⁻¹ * x) = x; rw [← mul_assoc, mul_inv_cancel₀ hc.ne', one_mul] }

theorem rat_unitChange {c : Rat} (hc : 0 < c) : @UnitChange Rat ratNum (fun x => c * x) (fun x => c⁻¹ * x) := by
  refine ⟨rat_rescales hc, ?_⟩
  have := rat_rescales (inv_pos.2 hc)
  rwa [inv_inv] at this

/-- the mesh of three cells at another place, with cells of volume one -/
def exShift (kind : ARKind) : Args Rat :=
  { exBary with aspect := kind, volumes := [1, 1, 1], centers := [[1, 0], [2, 0], [1, -1]] }

theorem exShift_valid (kind : ARKind) : @ValidMesh Rat ratNum (exShift kind) 3 :=
  @ValidMesh.mk Rat ratNum (exShift kind) 3 (by decide) exBary_crs (checkSym_sound exBary_crs (show checkSym 3 exBary.rowPtr exBary.colInd = true by decide))
    (Or.inl (checkUniq_sound exBary_crs (show checkUniq 3 exBary.rowPtr exBary.colInd = true by decide))) rfl rfl rfl rfl rfl
    ⟨2, show ∀ c ∈ ([[1, 0], [2, 0], [1, -1]] : List (List Rat)), c.length = 2 by decide +kernel⟩

theorem exShift_params {kind : ARKind} (hk : kind ≠ .unknown) : @ValidParams Rat ratNum exPlatform (exShift kind) :=
  let _ := ratNum
  let h := exBary_params
  ⟨h.dim, h.minCard, h.goalCard, h.maxCard, h.iter, h.thresh, h.order, hk, h.onePoint⟩

/-- **C69 is false with the barycenter**: in exact arithmetic, with cells of volume two instead
of one the coarse cells are others, for both types of aspect ratio with the barycenter.  The
code divides the sum of the centers weighted by volumes by the number of cells instead of the
total volume. -/
theorem C69_units_counterexample :
    ∃ (a : ARKind → Args Rat) (c : Rat) (o : Outs), 0 < c ∧ (∀ kind, (a kind).aspect = kind) ∧
      @UnitChange Rat ratNum (fun x => c * x) (fun x => c⁻¹ * x) ∧ @LawfulLt Rat ratNum ∧
      ∀ kind, kind = .maxBaryOverRadius ∨ kind = .maxOverMinBary →
        @ValidMesh Rat ratNum (a kind) 3 ∧ @ValidParams Rat ratNum exPlatform (a kind) ∧
        UniqueRows (a kind).rowPtr (a kind).colInd ∧ NoSelfLoop (a kind).rowPtr (a kind).colInd ∧ (a kind).isAniso = false ∧
        (@agglomerateOneLevel Rat ratNum exPlatform (a kind) o).1.fcToCc = [0, 0, 1] ∧
        (@agglomerateOneLevel Rat ratNum exPlatform ((a kind).inUnits id (fun x => c * x) id) o).1.fcToCc = [0, 1, 0] := by
  refine ⟨exShift, 2, ⟨[], [], []⟩, by decide, fun _ => rfl, rat_unitChange (by decide), ratLawful, ?_⟩
  rintro kind (rfl | rfl)
  · exact ⟨exShift_valid _, exShift_params (by decide), checkUniq_sound exBary_crs (by decide),
      checkNoLoop_sound exBary_crs (by decide), rfl, by decide +kernel, by decide +kernel⟩
  · exact ⟨exShift_valid _, exShift_params (by decide), checkUniq_sound exBary_crs (by decide),
      checkNoLoop_sound exBary_crs (by decide), rfl, by decide +kernel, by decide +kernel⟩

/-! ### Concrete cases -/

theorem exShift_mode (kind : ARKind) (o : Outs) : @ValidMode Rat ratNum (graphOf (exShift kind)) (exShift kind) o 3 :=
  let _ := ratNum
  ⟨Or.inl (Or.inl rfl), fun _ _ => by intro l _ m h; cases h⟩

theorem rat_range {cs : List (List Rat)}
    (h : ∀ i < cs.length, ∀ j < cs.length, i ≠ j → @Num.lt Rat ratNum (@Num.lmin Rat ratNum) (@dist2 Rat ratNum (cs.getD i []) (cs.getD j [])) = true ∧
      @Num.lt Rat ratNum (@dist2 Rat ratNum (cs.getD i []) (cs.getD j [])) (@Num.lmax Rat ratNum) = true) :
    @DistancesInRange Rat ratNum cs := by
  intro i j ci cj hij h1 h2
  have := h i (List.getElem?_eq_some_iff.1 h1).1 j (List.getElem?_eq_some_iff.1 h2).1 hij
  simpa only [List.getD_eq_getElem?_getD, h1, h2, Option.getD_some] using this

/-- three cells, diameter over radius, weights, volumes and lengths in other units -/
example := @C69_units_partial Rat ratNum exPlatform (exShift .diamOverRadius) ⟨[], [], []⟩ 3 (fun x => 3 * x) (fun x => 3⁻¹ * x)
  (fun x => 1000 * x) (fun x => 1000⁻¹ * x) (fun x => 10 * x) (fun x => 10⁻¹ * x) (exShift_valid _) (exShift_params (by decide))
  ratLawful (checkUniq_sound exBary_crs (by decide)) (checkNoLoop_sound exBary_crs (by decide)) (exShift_mode _ _)
  ⟨by decide, by decide⟩ (rat_unitChange (by decide)) (rat_unitChange (by decide)) (rat_unitChange (by decide))
  (fun _ => ⟨rat_range (by decide +kernel), rat_range (by decide +kernel)⟩) (fun h => by cases h)

/-- two columns of cells with lines built by the call, over the real numbers -/
noncomputable def exReal : Args ℝ :=
  { rowPtr := exCols.rowPtr, colInd := exCols.colInd, values := exCols.values.map (fun x : Int => (x : ℝ)),
    volumes := exCols.volumes.map (fun x : Int => (x : ℝ)), centers := exCols.centers.map (fun c => c.map (fun x : Int => (x : ℝ))),
    prio := exColsPrio.map (fun x : Int => (x : ℝ)), nBnd := exCols.nBnd, compliant := [0, 1, 2, 3, 4, 5], isAniso := true,
    buildLines := true, thr := 4, oddLine := exArgs.oddLine, order := exArgs.order, correction := exArgs.correction,
    dim := exArgs.dim, goalCard := exArgs.goalCard, minCard := exArgs.minCard, maxCard := exArgs.maxCard, aspect := .algebraic,
    singThresh := exArgs.singThresh, maxCells := exArgs.maxCells, coupling := .maxWeight, forceDir := exArgs.forceDir,
    fcIter := exArgs.fcIter, nbh := exArgs.nbh }

theorem exReal_valid : @ValidMesh ℝ (realNum 0 1000) exReal 6 :=
  let _ := realNum 0 1000
  { pos := by decide
    crs := exCols_crs
    sym := checkSym_sound exCols_crs (by decide)
    uniq := Or.inr real_lawful
    values := by show (List.map _ _).length = _; rw [List.length_map]; rfl
    volumes := by show (List.map _ _).length = _; rw [List.length_map]; rfl
    centers := by show (List.map _ _).length = _; rw [List.length_map]; rfl
    prio := by show (List.map _ _).length = _; rw [List.length_map]; rfl
    bnd := rfl
    coords := ⟨2, by
      intro c hc
      obtain ⟨d, hd, rfl⟩ := List.mem_map.1 (show c ∈ exCols.centers.map (fun c => c.map (fun x : Int => (x : ℝ))) from hc)
      rw [List.length_map]
      exact (by decide : ∀ d ∈ exCols.centers, d.length = 2) d hd⟩ }

theorem exReal_params : @ValidParams ℝ (realNum 0 1000) exPlatform exReal :=
  let _ := realNum 0 1000
  ⟨by decide, by decide, by decide, by decide, by decide, by decide, by decide, by decide, by decide⟩

theorem exReal_weights : ∀ w ∈ exReal.values, 0 ≤ w ∧ w ≤ 100 := by
  intro w hw
  obtain ⟨x, hx, rfl⟩ := List.mem_map.1 (show w ∈ exCols.values.map (fun x : Int => (x : ℝ)) from hw)
  have : 0 ≤ x ∧ x ≤ 100 := (by decide : ∀ x ∈ exCols.values, 0 ≤ x ∧ x ≤ 100) x hx
  exact ⟨by exact_mod_cast this.1, by exact_mod_cast this.2⟩

theorem exReal_builds : @BuildsLines ℝ (realNum 0 1000) exReal 6 ∧ @NonnegCouplings ℝ (realNum 0 1000) (graphOf exReal) (meantCoupling exReal) := by
  let _ := realNum 0 1000
  refine ⟨⟨rfl, rfl, by decide, ?_⟩, ?_⟩
  · intro h
    have e : Num.lt (Num.ofNat 1) exReal.thr = true := by
      show decide (((1 : Nat) : ℝ) < 4) = true
      norm_num
    unfold meantThreshold at h
    rw [if_neg (by rw [e]; simp)] at h
    have : decide ((4 : ℝ) < ((0 : Nat) : ℝ)) = true := h
    simp at this
    linarith
  · rintro i n w ⟨k, _, hk⟩
    have := (exReal_weights w (List.mem_of_getElem? hk)).1
    show decide (w < ((0 : Nat) : ℝ)) = false
    simpa using this

theorem exReal_mode (o : Outs) : @ValidMode ℝ (realNum 0 1000) (graphOf exReal) exReal o 6 :=
  let _ := realNum 0 1000
  ⟨Or.inr (Or.inl exReal_builds), fun _ _ => by intro l _ m h; cases h⟩

example := C69_real_partial (lo := 0) (hi := 1000) (a := exReal) (cw := 5) (cv := 7) (cl := 9) (o := ⟨[], [], []⟩) (by norm_num)
  (by norm_num) (by norm_num) exReal_valid exReal_params (checkUniq_sound exCols_crs (by decide))
  (checkNoLoop_sound exCols_crs (by decide)) (exReal_mode _) ⟨nofun, nofun⟩ (fun h => absurd h (by simp [exReal, ARKind.usesCenters]))
  (fun _ _ w hw => by
    have := exReal_weights w hw
    exact ⟨by linarith, by linarith⟩)

end CoMMA
