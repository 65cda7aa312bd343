import Verif.Lemmas.Straight
import Verif.Props.LineGrowth
import Verif.Props.Turn
import Mathlib.Geometry.Euclidean.Angle.Unoriented.Affine
import Mathlib.Analysis.InnerProductSpace.PiL2
import Mathlib.Analysis.SpecialFunctions.Trigonometric.Inverse
/-! # C84: lines that are to keep their direction do not bend -/

set_option linter.unusedSectionVars false

namespace CoMMA

section
variable {W : Type} [Num W]

/-- **C84** (any numbers) If the direction is to be kept, any three consecutive cells of a line
have passed the test on the direction, with the directions of the two steps that join them:
the cosine is positive and not below the limit. -/
theorem C84_tested (hW : LawfulLt W) {P : Platform} {a : Args W} {o : Outs} {n : Nat} (hm : ValidMesh a n)
    (hb : BuildsLines a n) (hns : NoSelfLoop a.rowPtr a.colInd) (hp : NonnegCouplings (graphOf a) (meantCoupling a))
    (hf : a.forceDir = true) :
    ∃ fls, fineLines P a o = .ok fls ∧ ∀ l ∈ fls, Triples (StraightOn (graphOf a)) l := by
  obtain ⟨fls, seeds, h1, _, _, _, h5⟩ := C48_call hW (P := P) (o := o) hm hb hns hp
  exact ⟨fls, h1, h5.straight hf⟩
end

/-! ### Real numbers: the angle -/

/-- a point of the space with `D` coordinates -/
noncomputable def pointOf (D : Nat) (c : List ℝ) : EuclideanSpace ℝ (Fin D) := WithLp.toLp 2 (coordsOf D c)

/-- the limit of the library is just above the cosine of 20 degrees -/
theorem cos_limit : Real.cos (Real.pi / 9) ≤ 9396926207859084 / 10 ^ 16 := by
  by_contra h
  rw [not_le] at h
  have h3 : Real.cos (3 * (Real.pi / 9)) = 1 / 2 := by
    rw [show 3 * (Real.pi / 9) = Real.pi / 3 by ring, Real.cos_pi_div_three]
  rw [Real.cos_three_mul] at h3
  have h1 := Real.cos_le_one (Real.pi / 9)
  generalize Real.cos (Real.pi / 9) = c at h h1 h3
  have h2 : (9396926207859084 / 10 ^ 16 : ℝ) ^ 2 ≤ c ^ 2 := by
    apply pow_le_pow_left₀ (by norm_num) h.le
  have h4 : (c - 9396926207859084 / 10 ^ 16) * (4 * (c ^ 2 + c * (9396926207859084 / 10 ^ 16) + (9396926207859084 / 10 ^ 16) ^ 2) - 3) > 0 := by
    apply mul_pos (by linarith)
    nlinarith
  have h5 : (4 * (9396926207859084 / 10 ^ 16) ^ 3 - 3 * (9396926207859084 / 10 ^ 16) : ℝ) ≥ 1 / 2 := by norm_num
  nlinarith

/-- vectors with a cosine close to minus one make an angle of at least 160 degrees -/
theorem angle_of_cos {D : Nat} {x y : EuclideanSpace ℝ (Fin D)}
    (h : 9396926207859084 / 10 ^ 16 ≤ -(inner ℝ x y / (‖x‖ * ‖y‖))) : 8 * Real.pi / 9 ≤ InnerProductGeometry.angle x y := by
  unfold InnerProductGeometry.angle
  have h1 : inner ℝ x y / (‖x‖ * ‖y‖) ≤ Real.cos (8 * Real.pi / 9) := by
    rw [show 8 * Real.pi / 9 = Real.pi - Real.pi / 9 by ring, Real.cos_pi_sub]
    linarith [cos_limit]
  have h2 := Real.arccos_le_arccos h1
  rwa [Real.arccos_cos (by positivity) (by linarith [Real.pi_pos])] at h2

theorem unit_coords {lo hi : ℝ} {D : Nat} {c d : List ℝ} (hc : c.length = D) (hd : d.length = D) :
    coordsOf D (@unitFrom ℝ (realNum lo hi) c d) = fun j => (coordsOf D d j - coordsOf D c j) * (1 / ‖pointOf D d - pointOf D c‖) := by
  let _ := realNum lo hi
  have hv : (vecFrom c d).length = D := turnVec_length hc hd
  have e1 : coordsOf D (vecFrom c d) = fun j => coordsOf D d j - coordsOf D c j := coordsOf_zip hc hd
  have e2 : scalar (vecFrom c d) (vecFrom c d) = ‖pointOf D d - pointOf D c‖ ^ 2 := by
    rw [← ofFn_coordsOf hv, scalar_real, e1, EuclideanSpace.norm_sq_eq]
    simp [_root_.dotProduct, pointOf, sq]
  have e3 : Num.div (Num.ofNat 1) (Num.sqrt (scalar (vecFrom c d) (vecFrom c d))) = 1 / ‖pointOf D d - pointOf D c‖ := by
    rw [e2]
    show ((1 : Nat) : ℝ) / Real.sqrt (_ ^ 2) = _
    rw [Real.sqrt_sq (norm_nonneg _), Nat.cast_one]
  show coordsOf D ((vecFrom c d).map _) = _
  rw [e3, coordsOf_map hv, e1]
  rfl

theorem scalar_inner {lo hi : ℝ} {D : Nat} {x y : List ℝ} (hx : x.length = D) (hy : y.length = D) :
    @scalar ℝ (realNum lo hi) x y = ∑ j, coordsOf D x j * coordsOf D y j := by
  conv_lhs => rw [← ofFn_coordsOf hx, ← ofFn_coordsOf hy, scalar_real]
  rfl

/-- the cosine computed for two steps -/
theorem scalar_units {lo hi : ℝ} {D : Nat} {p q r s : List ℝ} (hp : p.length = D) (hq : q.length = D) (hr : r.length = D) (hs : s.length = D) :
    @scalar ℝ (realNum lo hi) (@unitFrom ℝ (realNum lo hi) p q) (@unitFrom ℝ (realNum lo hi) r s) =
      inner ℝ (pointOf D q - pointOf D p) (pointOf D s - pointOf D r) / (‖pointOf D q - pointOf D p‖ * ‖pointOf D s - pointOf D r‖) := by
  let _ := realNum lo hi
  rw [scalar_inner (turnUnit_length hp hq) (turnUnit_length hr hs), unit_coords hp hq, unit_coords hr hs]
  rw [PiLp.inner_apply, Finset.sum_div]
  refine Finset.sum_congr rfl fun j _ => ?_
  simp only [pointOf, PiLp.sub_apply, RCLike.inner_apply, conj_trivial]
  ring

theorem scalar_neg {lo hi : ℝ} {D : Nat} {x y : List ℝ} (hx : x.length = D) (hy : y.length = D) :
    @scalar ℝ (realNum lo hi) (x.map (@Num.neg ℝ (realNum lo hi))) y = -@scalar ℝ (realNum lo hi) x y := by
  rw [scalar_inner (by simpa using hx) hy, scalar_inner hx hy, ← Finset.sum_neg_distrib]
  have := coordsOf_map (f := fun x => -x) hx
  refine Finset.sum_congr rfl fun j _ => ?_
  have e := congrFun this j
  show coordsOf D (x.map (fun x => -x)) j * _ = _
  rw [e]; ring

/-- what the test means for the centers -/
theorem straight_angle {lo hi : ℝ} {D : Nat} {g : Graph ℝ} (hD : ∀ c ∈ g.centers, c.length = D) {u v w : Nat}
    (h : @StraightOn ℝ (realNum lo hi) g u v w) : ∃ cu cv cw, g.centers[u]? = some cu ∧ g.centers[v]? = some cv ∧ g.centers[w]? = some cw ∧
      8 * Real.pi / 9 ≤ EuclideanGeometry.angle (pointOf D cu) (pointOf D cv) (pointOf D cw) := by
  let _ := realNum lo hi
  have key : ∀ {c : ℝ}, Num.lt (Num.ofNat 0) c = true → Num.lt (Num.abs c) Num.cdev = false → 9396926207859084 / 10 ^ 16 ≤ c := by
    intro c h1 h2
    have h1' : ((0 : Nat) : ℝ) < c := of_decide_eq_true h1
    have h2' : ¬ |c| < 9396926207859084 / 10 ^ 16 := of_decide_eq_false h2
    rw [Nat.cast_zero] at h1'
    rwa [abs_of_pos h1', not_lt] at h2'
  have inn : ∀ x y z : EuclideanSpace ℝ (Fin D), inner ℝ (x - y) (y - z) / (‖x - y‖ * ‖y - z‖) = -(inner ℝ (x - y) (z - y) / (‖x - y‖ * ‖z - y‖)) := by
    intro x y z
    rw [← neg_sub z y, inner_neg_right, norm_neg, neg_div]
  rcases h with ⟨d, ⟨cu, cv, h1, h2, rfl⟩, c, d', ⟨cv', cw, h3, h4, rfl⟩, h5, h6, h7⟩ |
    ⟨d, ⟨cw, cv, h4, h2, rfl⟩, c, d', ⟨cv', cu, h3, h1, rfl⟩, h5, h6, h7⟩ |
    ⟨d, ⟨cv, cw, h2, h4, rfl⟩, c, d', ⟨cv', cu, h3, h1, rfl⟩, h5, h6, h7⟩
  all_goals
    rw [h2] at h3
    cases h3
    refine ⟨cu, cv, cw, h1, h2, h4, ?_⟩
    have l1 := hD _ (List.mem_of_getElem? h1)
    have l2 := hD _ (List.mem_of_getElem? h2)
    have l4 := hD _ (List.mem_of_getElem? h4)
    have hk := key h6 h7
  · rw [h5, scalar_units l2 l1 l4 l2, inn] at hk
    exact angle_of_cos hk
  · rw [h5, scalar_units l2 l4 l1 l2, inn] at hk
    rw [EuclideanGeometry.angle_comm]
    exact angle_of_cos hk
  · rw [h5, scalar_neg (turnUnit_length l4 l2) (turnUnit_length l1 l2), scalar_units l4 l2 l1 l2] at hk
    refine angle_of_cos ?_
    rw [← neg_sub (pointOf D cu), ← neg_sub (pointOf D cw), inner_neg_neg, norm_neg, norm_neg, real_inner_comm, mul_comm ‖_‖] at hk
    exact hk

/-- **C84** (exact arithmetic) If the direction is to be kept, the angle at the middle one of
any three consecutive cells of a line, between the centers of the two others, is at least 160
degrees: the line never turns by more than 20 degrees from one step to the next. -/
theorem C84_angle {lo hi : ℝ} {P : Platform} {a : Args ℝ} {o : Outs} {n D : Nat} (hm : @ValidMesh ℝ (realNum lo hi) a n)
    (hb : @BuildsLines ℝ (realNum lo hi) a n) (hns : NoSelfLoop a.rowPtr a.colInd)
    (hp : @NonnegCouplings ℝ (realNum lo hi) (graphOf a) (meantCoupling a))
    (hf : a.forceDir = true) (hD : ∀ c ∈ a.centers, c.length = D) :
    ∃ fls, @fineLines ℝ (realNum lo hi) P a o = .ok fls ∧ ∀ l ∈ fls, ∀ k u v w : Nat,
      l[k]? = some u → l[k + 1]? = some v → l[k + 2]? = some w →
      ∃ cu cv cw, a.centers[u]? = some cu ∧ a.centers[v]? = some cv ∧ a.centers[w]? = some cw ∧
        8 * Real.pi / 9 ≤ EuclideanGeometry.angle (pointOf D cu) (pointOf D cv) (pointOf D cw) := by
  obtain ⟨fls, h1, h2⟩ := @C84_tested ℝ (realNum lo hi) real_lawful P a o n hm hb hns hp hf
  exact ⟨fls, h1, fun l hl k u v w hu hv hw => straight_angle hD (h2 l hl k u v w hu hv hw)⟩

/-! ### Concrete cases -/

/-- two columns of three cells, built with the direction kept -/
example (P : Platform) (o : Outs) := C84_tested exLawful (P := P) (o := o) (a := { exBuild with forceDir := true }) (n := 6)
  { exBuild_valid with } { exBuild_lines with } exCols_noLoop exCols_nonneg rfl

example (P : Platform) (o : Outs) := C84_angle (lo := 0) (hi := 1000) (P := P) (o := o) (a := { exReal with forceDir := true }) (n := 6) (D := 2)
  (let _ := realNum 0 1000; { exReal_valid with }) (let _ := realNum 0 1000; { exReal_builds.1 with })
  exCols_noLoop exReal_builds.2 rfl (by
    intro c hc
    obtain ⟨d, hd, rfl⟩ := List.mem_map.1 (show c ∈ exCols.centers.map (fun c => c.map (fun x : Int => (x : ℝ))) from hc)
    rw [List.length_map]
    exact (by decide : ∀ d ∈ exCols.centers, d.length = 2) d hd)

/-- the lines of the example have three cells, so the theorem says something about them -/
example : fineLines exPlatform { exBuild with forceDir := true } ⟨[], [], []⟩ = .ok [[0, 1, 2], [3, 4, 5]] := by decide +kernel

/-- three cells of the plane, the second step being at right angles with the first; `force` tells whether the direction is to be kept -/
def exCorner (force : Bool) : Args Dbl where
  rowPtr := [0, 1, 3, 4]
  colInd := [1, 0, 2, 1]
  values := List.replicate 4 (Dbl.dec 1 0)
  volumes := List.replicate 3 (Dbl.dec 1 0)
  centers := [[Dbl.dec 0 0, Dbl.dec 0 0], [Dbl.dec 1 0, Dbl.dec 0 0], [Dbl.dec 1 0, Dbl.dec 1 0]]
  prio := [Dbl.dec 3 0, Dbl.dec 2 0, Dbl.dec 1 0]
  compliant := [0, 1, 2]
  nBnd := [3, 2, 3]
  buildLines := true
  isAniso := true
  oddLine := true
  thr := Dbl.dec (-1) 0
  order := .boundary
  correction := false
  dim := 2
  goalCard := 2
  minCard := 2
  maxCard := 2
  aspect := .diameter
  singThresh := 1
  maxCells := none
  coupling := .maxWeight
  forceDir := force
  fcIter := 1
  nbh := .extended

/-- **C84** without the option lines may bend: this one turns at right angles; with the option
the line stops before the corner -/
theorem C84_corner : fineLines exPlatform (exCorner false) ⟨[], [], []⟩ = .ok [[0, 1, 2]] ∧
    fineLines exPlatform (exCorner true) ⟨[], [], []⟩ = .ok [[0, 1]] := by decide +kernel

end CoMMA
