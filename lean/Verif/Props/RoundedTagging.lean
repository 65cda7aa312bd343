import Verif.Spec.RoundedTagging
import Verif.Lemmas.DoubleSqrt
import Verif.Lemmas.DoubleArith
import Verif.Props.LineGrowth
import Verif.Props.Straight
/-! # C85: which cells count as anisotropic in double precision -/

namespace CoMMA

/-- **C79** The square root of the model of doubles is that of IEEE 754: the square root of a positive finite double is finite, no double
is closer to the exact root. -/
theorem C79_sqrt {a : Dbl} (ha : a.Finite) (hp : 0 < a.value) :
    (Num.sqrt a).Finite ∧ ∀ c : Dbl, |((Num.sqrt a).value : ℝ) - √(a.value : ℝ)| ≤ |(c.value : ℝ) - √(a.value : ℝ)| := by
  rw [← Dbl.value_zero, Dbl.value_lt] at hp
  obtain ⟨h1, h2, _⟩ := Dbl.sqrt_spec ha hp
  exact ⟨h1, h2⟩

example := C79_sqrt (a := Dbl.dec 2 0) (by decide) (by rw [← Dbl.value_zero, Dbl.value_lt]; decide)

theorem ExtremeFaces.range {g : Graph Dbl} {i : Nat} {mn mx : Dbl} (h : ExtremeFaces g i mn mx) : WeightRange g i mn mx := by
  have nlt : ∀ {a b : Dbl}, a.value ≤ b.value → Num.lt b a = false := by
    intro a b hab
    rw [Dbl.value_le] at hab
    exact decide_eq_false (by omega)
  have h1 := (h.between _ h.smallest).2
  refine ⟨fun w hw => nlt (h.between w hw).1, Or.inr h.smallest, nlt ?_, fun w hw => nlt (h.between w hw).2, Or.inr h.largest, nlt ?_⟩
  · refine h1.trans ?_
    have := h.finite
    unfold Dbl.Finite at this
    rw [Dbl.value_le]
    show mx.code ≤ (Dbl.infC : Int) - 1
    omega
  · have : (Num.ofNat 0 : Dbl) = ⟨0⟩ := by decide
    rw [this, Dbl.value_zero]
    linarith [h.positive]

theorem ExtremeFaces.anisotropic {g : Graph Dbl} {i : Nat} {mn mx t : Dbl} (h : ExtremeFaces g i mn mx) (ht : 0 ≤ t.value) :
    IsAnisotropic g t i ↔ t.code ≤ (if g.dim = 2 then Dbl.div mx mn else Dbl.sqrt (Dbl.div mx mn)).code := by
  have e0 : (Num.ofNat 0 : Dbl) = ⟨0⟩ := by decide
  rw [← Dbl.value_zero, Dbl.value_le] at ht
  have h0 : Num.lt t (Num.ofNat 0 : Dbl) = false := by
    rw [e0]; exact decide_eq_false (by omega)
  unfold IsAnisotropic
  rw [h0]
  constructor
  · rintro (h1 | ⟨mn', mx', h1, h2⟩)
    · cases h1
    · obtain ⟨rfl, rfl⟩ := WeightRange.unique dbl_lawful h.range h1
      exact of_decide_eq_true h2
  · intro h1
    exact Or.inr ⟨mn, mx, h.range, decide_eq_true h1⟩

/-- quotient of two positive doubles, the first not below the second -/
theorem Dbl.div_ge_one {a b : Dbl} (ha : a.Finite) (hb : 0 < b.value) (hab : b.value ≤ a.value) :
    (∀ t : Dbl, t.Finite → t.value ≤ a.value / b.value → t.code ≤ (div a b).code) ∧
    ((div a b).Finite → |(div a b).value - a.value / b.value| ≤ (2 : ℚ) ^ (-53 : Int) * (a.value / b.value)) ∧
    (¬ (div a b).Finite → largest.value < a.value / b.value) ∧ 1 ≤ a.value / b.value ∧ 0 < (div a b).code := by
  have hb0 := hb
  rw [← value_zero, value_lt] at hb
  change (0 : Int) < b.code at hb
  rw [value_le] at hab
  have hbf : b.Finite := by unfold Finite at ha ⊢; omega
  obtain ⟨n, d, e, hd, h1, h2⟩ := div_eq ha hbf (by omega)
  have hone : 1 ≤ a.value / b.value := by
    rw [one_le_div hb0]
    exact value_le.2 hab
  rw [h1]
  rw [← h2] at hone ⊢
  refine ⟨fun t ht htr => le_roundInt hd ht htr, fun hf => ?_, fun hf => ?_, hone, ?_⟩
  · have := roundInt_error hd hf (Or.inr (by
      rw [abs_of_nonneg (by linarith)]
      exact le_trans (zpow_le_one_of_nonpos₀ (by norm_num) (by norm_num)) hone))
    rwa [abs_of_nonneg (a := (n : ℚ) / d * (2 : ℚ) ^ e) (by linarith)] at this
  · by_contra hle
    exact hf (roundInt_fits hd (by rw [abs_of_nonneg (by linarith)]; linarith))
  · have v1 : (⟨1023 * 2 ^ 52⟩ : Dbl).value ≤ (n : ℚ) / d * (2 : ℚ) ^ e := by
      refine le_trans (le_of_eq ?_) hone
      norm_num [value, valueN, mant, expo]
    have := le_roundInt hd (b := ⟨1023 * 2 ^ 52⟩) (by decide) v1
    refine lt_of_lt_of_le ?_ this
    decide

/-- the plane: the ratio of the weights -/
theorem tagged_plane {g : Graph Dbl} {i : Nat} {mn mx t : Dbl} (h : ExtremeFaces g i mn mx) (ht : 0 ≤ t.value) (htf : t.Finite) (hd : g.dim = 2) :
    (t.value ≤ mx.value / mn.value → IsAnisotropic g t i) ∧
    (IsAnisotropic g t i → t.value ≤ mx.value / mn.value * (1 + (2 : ℚ) ^ (-53 : Int))) := by
  obtain ⟨h1, h2, h3, h4, _⟩ := Dbl.div_ge_one h.finite h.positive (h.between _ h.smallest).2
  rw [h.anisotropic ht, if_pos hd]
  refine ⟨h1 t htf, fun hle => ?_⟩
  by_cases hf : (Dbl.div mx mn).Finite
  · have := (abs_le.1 (h2 hf)).2
    rw [← Dbl.value_le] at hle
    linarith
  · have h5 := h3 hf
    have h6 : t.value ≤ Dbl.largest.value := by
      rw [Dbl.value_le]
      unfold Dbl.Finite at htf
      show t.code ≤ (Dbl.infC : Int) - 1
      omega
    have : (0 : ℚ) ≤ mx.value / mn.value * (2 : ℚ) ^ (-53 : Int) := mul_nonneg (by linarith) (by positivity)
    linarith

/-- three dimensions: the square root of the ratio of the weights -/
theorem tagged_space {g : Graph Dbl} {i : Nat} {mn mx t : Dbl} (h : ExtremeFaces g i mn mx) (ht : 0 ≤ t.value) (hth : t.value ≤ (2 : ℚ) ^ (500 : Int))
    (hd : g.dim ≠ 2) :
    ((t.value : ℝ) * (1 + (2 : ℝ) ^ (-51 : Int)) ≤ √((mx.value / mn.value : ℚ) : ℝ) → IsAnisotropic g t i) ∧
    (IsAnisotropic g t i → (t.value : ℝ) ≤ √((mx.value / mn.value : ℚ) : ℝ) * (1 + (2 : ℝ) ^ (-51 : Int))) := by
  obtain ⟨h1, h2, h3, h4, h5⟩ := Dbl.div_ge_one h.finite h.positive (h.between _ h.smallest).2
  rw [h.anisotropic ht, if_neg hd]
  have htR : (0 : ℝ) ≤ (t.value : ℝ) := by exact_mod_cast ht
  have h51 : (2 : ℝ) ^ (-51 : Int) = 1 / 2 ^ 51 := by norm_num
  have h52 : (2 : ℝ) ^ (-52 : Int) = 1 / 2 ^ 52 := by norm_num
  by_cases hf : (Dbl.div mx mn).Finite
  · obtain ⟨p1, _, p3⟩ := Dbl.sqrt_spec hf h5
    have h2R : |((Dbl.div mx mn).value : ℝ) - ((mx.value / mn.value : ℚ) : ℝ)| ≤ 1 / 2 ^ 53 * ((mx.value / mn.value : ℚ) : ℝ) := by
      have : ((|(Dbl.div mx mn).value - mx.value / mn.value| : ℚ) : ℝ) ≤ (((2 : ℚ) ^ (-53 : Int) * (mx.value / mn.value) : ℚ) : ℝ) := by
        exact_mod_cast h2 hf
      push_cast at this ⊢
      refine this.trans (le_of_eq ?_)
      norm_num
    have h4R : (1 : ℝ) ≤ ((mx.value / mn.value : ℚ) : ℝ) := by exact_mod_cast h4
    rw [h52] at p3
    rw [h51]
    rw [← Dbl.value_le, ← Rat.cast_le (K := ℝ)]
    generalize ((mx.value / mn.value : ℚ) : ℝ) = R at *
    generalize (t.value : ℝ) = T at *
    generalize ((Dbl.div mx mn).value : ℝ) = q at *
    generalize ((Dbl.sqrt (Dbl.div mx mn)).value : ℝ) = s at *
    have b := abs_le.1 h2R
    have r0 := Real.sqrt_nonneg R
    have q1 : √q ≤ √R * (1 + 1 / 2 ^ 53) := by
      rw [Real.sqrt_le_left (by positivity), mul_pow, Real.sq_sqrt (by linarith)]
      nlinarith
    have q2 : √R * (1 - 1 / 2 ^ 53) ≤ √q := by
      apply Real.le_sqrt_of_sq_le
      rw [mul_pow, Real.sq_sqrt (by linarith)]
      nlinarith
    have c := abs_le.1 p3
    constructor
    · intro hle
      nlinarith
    · intro hle
      nlinarith
  · have h6 := h3 hf
    have h7 : (2 : ℝ) ^ (500 : Int) ≤ √((mx.value / mn.value : ℚ) : ℝ) := by
      apply Real.le_sqrt_of_sq_le
      have h8 : (2 : ℚ) ^ (1000 : Int) ≤ mx.value / mn.value :=
        (zpow_le_zpow_right₀ (by norm_num) (by norm_num)).trans (dbl_largest.trans h6.le)
      have h9 : (((2 : ℚ) ^ (1000 : Int) : ℚ) : ℝ) ≤ ((mx.value / mn.value : ℚ) : ℝ) := by exact_mod_cast h8
      refine le_trans (le_of_eq ?_) h9
      rw [Rat.cast_zpow, sq, ← zpow_add₀ (by norm_num)]
      norm_num
    have hT : (t.value : ℝ) ≤ (2 : ℝ) ^ (500 : Int) := by
      have : (t.value : ℝ) ≤ (((2 : ℚ) ^ (500 : Int) : ℚ) : ℝ) := by exact_mod_cast hth
      rwa [Rat.cast_zpow] at this
    have hinf : Dbl.sqrt (Dbl.div mx mn) = Dbl.div mx mn := by
      unfold Dbl.sqrt
      rw [if_neg (by omega), if_pos (by unfold Dbl.isInf; unfold Dbl.Finite at hf; simp; omega)]
    have hcode : t.code ≤ (Dbl.sqrt (Dbl.div mx mn)).code := by
      have a1 : t.value ≤ Dbl.largest.value := hth.trans ((zpow_le_zpow_right₀ (by norm_num) (by norm_num)).trans dbl_largest)
      rw [Dbl.value_le] at a1
      change t.code ≤ (Dbl.infC : Int) - 1 at a1
      rw [hinf]
      unfold Dbl.Finite at hf
      omega
    refine ⟨fun _ => hcode, fun _ => ?_⟩
    have : (0 : ℝ) ≤ √((mx.value / mn.value : ℚ) : ℝ) * (2 : ℝ) ^ (-51 : Int) := by positivity
    generalize (2 : ℝ) ^ (-51 : Int) = u at *
    generalize (2 : ℝ) ^ (500 : Int) = v at *
    linarith

/-- **C85** A call that builds its lines grows them from, and through, the cells of the set `seeds` only. A compliant cell with positive
and finite face weights belongs to it, in the plane, if the exact ratio of its largest to its smallest weight reaches the threshold, and
only if it does up to one rounding; in space the same is true of the square root of the ratio, up to four roundings. The rounding of the
ratio or of the root, overflows included, makes no other difference. -/
theorem C85_tagged {P : Platform} {a : Args Dbl} {o : Outs} {n : Nat} (hm : ValidMesh a n)
    (hb : BuildsLines a n) (hns : NoSelfLoop a.rowPtr a.colInd) (hp : NonnegCouplings (graphOf a) (meantCoupling a))
    (ht : 0 ≤ (meantThreshold a.thr).value) (hth : (meantThreshold a.thr).value ≤ (2 : ℚ) ^ (500 : Int)) :
    ∃ fls seeds, fineLines P a o = .ok fls ∧ LinesFrom (graphOf a) (meantCoupling a) a.forceDir (· ∈ seeds) seeds fls ∧
      (∀ x ∈ fls.flatten, x ∈ seeds) ∧ (∀ i ∈ seeds, i ∈ a.compliant) ∧
      ∀ i ∈ a.compliant, ∀ mn mx, ExtremeFaces (graphOf a) i mn mx →
        (a.dim = 2 →
          ((meantThreshold a.thr).value ≤ mx.value / mn.value → i ∈ seeds) ∧
          (i ∈ seeds → (meantThreshold a.thr).value ≤ mx.value / mn.value * (1 + (2 : ℚ) ^ (-53 : Int)))) ∧
        (a.dim ≠ 2 →
          (((meantThreshold a.thr).value : ℝ) * (1 + (2 : ℝ) ^ (-51 : Int)) ≤ √((mx.value / mn.value : ℚ) : ℝ) → i ∈ seeds) ∧
          (i ∈ seeds → ((meantThreshold a.thr).value : ℝ) ≤ √((mx.value / mn.value : ℚ) : ℝ) * (1 + (2 : ℝ) ^ (-51 : Int)))) := by
  obtain ⟨fls, seeds, h1, h2, _, _, h5⟩ := C48_call dbl_lawful (P := P) (o := o) hm hb hns hp
  have htf : (meantThreshold a.thr).Finite := by
    have a1 : (meantThreshold a.thr).value ≤ Dbl.largest.value := hth.trans ((zpow_le_zpow_right₀ (by norm_num) (by norm_num)).trans dbl_largest)
    have a2 := ht
    rw [Dbl.value_le] at a1
    rw [← Dbl.value_zero, Dbl.value_le] at a2
    change _ ≤ (Dbl.infC : Int) - 1 at a1
    change (0 : Int) ≤ _ at a2
    unfold Dbl.Finite
    omega
  refine ⟨fls, seeds, h1, h5, ?_, fun i hi => ((h2 i).1 hi).1, ?_⟩
  · obtain ⟨fls', e1, _, _, _, e5⟩ := fineLines_build (P := P) (o := o) hm hb
    rw [h1] at e1
    cases e1
    have hg := linesInput_of hm hb
    intro x hx
    obtain ⟨u, v⟩ := e5 x hx
    exact (h2 x).2 ⟨u, (isTagged_iff dbl_lawful hg.crs hg.sizes.values (by rw [graphOf_nbC hm]; exact hb.compliant x u)).1 v⟩
  · intro i hi mn mx he
    have hd : (graphOf a).dim = a.dim.toNat := rfl
    have key : i ∈ seeds ↔ IsAnisotropic (graphOf a) (meantThreshold a.thr) i := by
      rw [h2]; exact and_iff_right hi
    rw [key]
    exact ⟨fun h => tagged_plane he ht htf (by rw [hd, h]; rfl), fun h => tagged_space he ht hth (by rw [hd]; omega)⟩

/-! ### A concrete case, and the limit of the claim -/

/-- 2 ^ 53 - 1 -/
def exThin : Dbl := Dbl.roundInt (2 ^ 53 - 1) 1 0

/-- 3 * 2 ^ 53 - 4, a little less than three times the former -/
def exWide : Dbl := Dbl.roundInt (3 * 2 ^ 53 - 4) 1 0

/-- four cells in a row, with a face of weight `exWide` in the middle and faces of weight `exThin` at the ends; the threshold is 3 -/
def exNearThree : Args Dbl where
  rowPtr := [0, 1, 3, 5, 6]
  colInd := [1, 0, 2, 1, 3, 2]
  values := [exThin, exThin, exWide, exWide, exThin, exThin]
  volumes := List.replicate 4 (Dbl.dec 1 0)
  centers := [[Dbl.dec 0 0, Dbl.dec 0 0], [Dbl.dec 1 0, Dbl.dec 0 0], [Dbl.dec 2 0, Dbl.dec 0 0], [Dbl.dec 3 0, Dbl.dec 0 0]]
  prio := List.replicate 4 (Dbl.dec 1 0)
  compliant := [0, 1, 2, 3]
  nBnd := [3, 2, 2, 3]
  buildLines := true
  isAniso := true
  oddLine := true
  thr := Dbl.dec 3 0
  order := .boundary
  correction := false
  dim := 2
  goalCard := 2
  minCard := 2
  maxCard := 2
  aspect := .diameter
  singThresh := 1
  maxCells := none
  coupling := .maxWeight
  forceDir := false
  fcIter := 1
  nbh := .extended

theorem exNearThree_valid : ValidMesh exNearThree 4 where
  pos := by decide
  crs := checkCRS_sound (by decide)
  sym := checkSym_sound (n := 4) (checkCRS_sound (by decide)) (by decide)
  uniq := Or.inr dbl_lawful
  values := rfl
  volumes := rfl
  centers := rfl
  prio := rfl
  bnd := rfl
  coords := ⟨2, by decide⟩

theorem exNearThree_lines : BuildsLines exNearThree 4 where
  on := rfl
  build := rfl
  compliant := by decide
  isolated h := absurd h (by decide +kernel)

theorem exNearThree_nonneg : NonnegCouplings (graphOf exNearThree) (meantCoupling exNearThree) := by
  rintro i n w ⟨k, _, hw⟩
  have h : ∀ w ∈ exNearThree.values, Num.lt w (Num.ofNat 0) = false := by decide +kernel
  exact h w (List.mem_of_getElem? hw)

theorem exThree : meantThreshold exNearThree.thr = ⟨1024 * 2 ^ 52 + 2 ^ 51⟩ := by decide +kernel

theorem exThree_value : (meantThreshold exNearThree.thr).value = 3 := by
  rw [exThree]
  norm_num [Dbl.value, Dbl.valueN, Dbl.mant, Dbl.expo]

theorem exThin_code : exThin = ⟨1075 * 2 ^ 52 + (2 ^ 52 - 1)⟩ := by decide +kernel
theorem exWide_code : exWide = ⟨1077 * 2 ^ 52 + (2 ^ 51 - 1)⟩ := by decide +kernel

example (P : Platform) (o : Outs) := C85_tagged (P := P) (o := o) exNearThree_valid exNearThree_lines
  (checkNoLoop_sound (n := 4) (checkCRS_sound (by decide)) (by decide)) exNearThree_nonneg
  (by rw [exThree_value]; norm_num)
  (by rw [exThree_value]; exact le_trans (by norm_num) (zpow_le_zpow_right₀ (by norm_num) (by norm_num) : (2 : ℚ) ^ (2 : Int) ≤ _))

theorem exThin_value : exThin.value = 2 ^ 53 - 1 := by
  rw [exThin_code]
  norm_num [Dbl.value, Dbl.valueN, Dbl.mant, Dbl.expo]

theorem exWide_value : exWide.value = 3 * 2 ^ 53 - 4 := by
  rw [exWide_code]
  norm_num [Dbl.value, Dbl.valueN, Dbl.mant, Dbl.expo]

theorem exNearThree_faces : ExtremeFaces (graphOf exNearThree) 1 exThin exWide where
  smallest := ⟨1, 3, 1, 0, rfl, rfl, by omega, by omega, rfl, by omega, rfl⟩
  largest := ⟨1, 3, 2, 2, rfl, rfl, by omega, by omega, rfl, by omega, rfl⟩
  between := by
    rintro w ⟨b, e, k, n, hb, he, h1, h2, _, _, hw⟩
    have hv : w ∈ exNearThree.values := List.mem_of_getElem? hw
    have : w = exThin ∨ w = exWide := by
      simp only [exNearThree, List.mem_cons, List.not_mem_nil, or_false] at hv
      tauto
    have h : exThin.value ≤ exWide.value := by rw [exThin_value, exWide_value]; norm_num
    rcases this with rfl | rfl
    · exact ⟨le_refl _, h⟩
    · exact ⟨h, le_refl _⟩
  positive := by rw [exThin_value]; norm_num
  finite := by rw [exWide_code]; decide

/-- **C85** the rounding cannot be left out of the claim: the ratio of the weights of the two cells in the middle is below the threshold,
but it is rounded to it, and the cells make up a line -/
theorem C85_rounding : (exWide.value / exThin.value < (meantThreshold exNearThree.thr).value) ∧
    fineLines exPlatform exNearThree ⟨[], [], []⟩ = .ok [[1, 2]] := by
  refine ⟨?_, by decide +kernel⟩
  rw [exThree_value, exThin_value, exWide_value]
  norm_num

end CoMMA
