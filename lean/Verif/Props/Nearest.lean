import Verif.Spec.Nearest
import Verif.Props.StraightDouble
/-! # C86: with the coupling by distance the lines join almost nearest neighbours -/

set_option linter.unusedSectionVars false

namespace CoMMA

section
variable {W : Type} [Num W]

theorem dist2_scalar : ∀ c d : List W, dist2 c d = scalar (vecFrom d c) (vecFrom d c) := by
  have key : ∀ c d : List W, List.zipWith (fun x y => Num.mul (Num.sub x y) (Num.sub x y)) c d =
      List.zipWith Num.mul (List.zipWith (fun x y => Num.sub y x) d c) (List.zipWith (fun x y => Num.sub y x) d c) := by
    intro c
    induction c with
    | nil => intro d; cases d <;> rfl
    | cons a c ih =>
      intro d
      cases d with
      | nil => rfl
      | cons b d => simp only [List.zipWith_cons_cons, ih]
  intro c d
  unfold dist2 scalar vecFrom
  rw [key]

theorem Adj.faceAt {g : Graph W} {i j : Nat} (h : Adj g.rowPtr g.colInd i j) : ∃ k, FaceAt g i k j := by
  obtain ⟨b, e, k, h1, h2, h3, h4, h5⟩ := h
  exact ⟨k, b, e, h1, h2, h3, h4, h5⟩

/-- the coupling by distance of two neighbours -/
theorem couplingOf_distance {g : Graph W} {i j : Nat} {w : W} (h : CouplingOf g .minDistance i j w) :
    Adj g.rowPtr g.colInd i j ∧ ∃ ci cj, g.centers[i]? = some ci ∧ g.centers[j]? = some cj ∧ w = Num.div (Num.ofNat 1) (dist2 ci cj) := by
  obtain ⟨k, ⟨b, e, h1, h2, h3, h4, h5⟩, h6⟩ := h
  exact ⟨⟨b, e, k, h1, h2, h3, h4, h5⟩, h6⟩

/-- without the option on the direction, consecutive cells of a line are strongly coupled -/
theorem lines_linked (hW : LawfulLt W) {P : Platform} {a : Args W} {o : Outs} {n : Nat} (hm : ValidMesh a n)
    (hb : BuildsLines a n) (hns : NoSelfLoop a.rowPtr a.colInd) (hp : NonnegCouplings (graphOf a) (meantCoupling a))
    (hf : a.forceDir = false) :
    ∃ fls, fineLines P a o = .ok fls ∧ ∀ l ∈ fls, ∀ k u v : Nat, l[k]? = some u → l[k + 1]? = some v →
      (∃ w, StrongCoupling (graphOf a) (meantCoupling a) u v w) ∨ ∃ w, StrongCoupling (graphOf a) (meantCoupling a) v u w := by
  obtain ⟨fls, seeds, h1, _, _, _, h5⟩ := C48_call hW (P := P) (o := o) hm hb hns hp
  exact ⟨fls, h1, h5.linked hf⟩
end

/-! ### Real numbers -/

theorem dist2_real {lo hi : ℝ} {D : Nat} {c d : List ℝ} (hc : c.length = D) (hd : d.length = D) :
    @dist2 ℝ (realNum lo hi) c d = dist (pointOf D c) (pointOf D d) ^ 2 := by
  let _ := realNum lo hi
  have hv : (vecFrom d c).length = D := turnVec_length hd hc
  have e1 : coordsOf D (vecFrom d c) = fun j => coordsOf D c j - coordsOf D d j := coordsOf_zip hd hc
  rw [dist2_scalar, scalar_inner hv hv, e1, dist_eq_norm, EuclideanSpace.norm_sq_eq]
  simp [pointOf, sq]

theorem distance_real {lo hi : ℝ} {D : Nat} {c d : List ℝ} (hc : c.length = D) (hd : d.length = D) :
    @Num.div ℝ (realNum lo hi) (@Num.ofNat ℝ (realNum lo hi) 1) (@dist2 ℝ (realNum lo hi) c d) =
      1 / dist (pointOf D c) (pointOf D d) ^ 2 := by
  show ((1 : Nat) : ℝ) / _ = _
  rw [Nat.cast_one, dist2_real hc hd]

/-- **C86** (exact arithmetic) If a call builds its lines with the coupling by distance and need
not keep their direction, then of any two consecutive cells of a line one is almost the nearest
neighbour of the other: the square of the distance is at most 10/9 of the smallest one. -/
theorem C86_nearest {lo hi : ℝ} {P : Platform} {a : Args ℝ} {o : Outs} {n D : Nat} (hm : @ValidMesh ℝ (realNum lo hi) a n)
    (hb : @BuildsLines ℝ (realNum lo hi) a n) (hns : NoSelfLoop a.rowPtr a.colInd) (hk : a.coupling = .minDistance)
    (hf : a.forceDir = false) (hD : ∀ c ∈ a.centers, c.length = D)
    (hdist : ∀ i j ci cj, Adj a.rowPtr a.colInd i j → a.centers[i]? = some ci → a.centers[j]? = some cj → ci ≠ cj) :
    ∃ fls, @fineLines ℝ (realNum lo hi) P a o = .ok fls ∧ ∀ l ∈ fls, ∀ k u v : Nat, l[k]? = some u → l[k + 1]? = some v →
      NearlyNearest a (pointOf D) (10 / 9) u v ∨ NearlyNearest a (pointOf D) (10 / 9) v u := by
  let _ := realNum lo hi
  have hmc : meantCoupling a = .minDistance := by
    unfold meantCoupling
    rw [if_neg (by rw [hk]; rintro ⟨h, _⟩; cases h), hk]
  have hp : NonnegCouplings (graphOf a) (meantCoupling a) := by
    rw [hmc]
    intro i j w hw
    obtain ⟨_, ci, cj, h1, h2, rfl⟩ := couplingOf_distance hw
    rw [distance_real (hD _ (List.mem_of_getElem? h1)) (hD _ (List.mem_of_getElem? h2))]
    show decide (_ < ((0 : Nat) : ℝ)) = false
    rw [decide_eq_false_iff_not, not_lt, Nat.cast_zero]
    positivity
  obtain ⟨fls, h1, h2⟩ := lines_linked real_lawful (P := P) (o := o) hm hb hns hp hf
  have key : ∀ i j w, StrongCoupling (graphOf a) (meantCoupling a) i j w → NearlyNearest a (pointOf D) (10 / 9) i j := by
    rw [hmc]
    rintro i j w ⟨hw, m, ⟨hm1, hm2⟩, hlt⟩
    obtain ⟨hadj, ci, cj, hi, hj, rfl⟩ := couplingOf_distance hw
    refine ⟨hadj, ?_⟩
    intro x ci' cj' cx hx hi' hj' hcx
    have hi : a.centers[i]? = some ci := hi
    have hj : a.centers[j]? = some cj := hj
    rw [hi] at hi'
    rw [hj] at hj'
    cases hi'
    cases hj'
    obtain ⟨k, hf⟩ := Adj.faceAt (g := graphOf a) hx
    have h3 := hm1 x _ ⟨k, hf, ci, cx, hi, hcx, rfl⟩
    have li := hD _ (List.mem_of_getElem? hi)
    have lj := hD _ (List.mem_of_getElem? hj)
    have lx := hD _ (List.mem_of_getElem? hcx)
    rw [distance_real li lx] at h3
    rw [distance_real li lj] at hlt
    have h3' : ¬ m < 1 / dist (pointOf D ci) (pointOf D cx) ^ 2 := of_decide_eq_false h3
    have hlt' : 9 / 10 * m < 1 / dist (pointOf D ci) (pointOf D cj) ^ 2 := of_decide_eq_true hlt
    have pos : ∀ {c d : List ℝ}, c.length = D → d.length = D → c ≠ d → 0 < dist (pointOf D c) (pointOf D d) ^ 2 := by
      intro c d hc hd hne
      have : pointOf D c ≠ pointOf D d := by
        intro h
        apply hne
        rw [← ofFn_coordsOf hc, ← ofFn_coordsOf hd]
        have := congrArg (WithLp.ofLp) h
        exact congrArg List.ofFn this
      have := dist_pos.2 this
      positivity
    have pj := pos li lj (hdist i j ci cj hadj hi hj)
    have px := pos li lx (hdist i x ci cx hx hi hcx)
    rw [not_lt] at h3'
    generalize dist (pointOf D ci) (pointOf D cj) ^ 2 = s at *
    generalize dist (pointOf D ci) (pointOf D cx) ^ 2 = t at *
    have h4 : 9 / 10 * (1 / t) < 1 / s := by linarith
    rw [mul_one_div, div_lt_div_iff₀ px pj] at h4
    linarith
  refine ⟨fls, h1, fun l hl k u v hu hv => ?_⟩
  rcases h2 l hl k u v hu hv with ⟨w, h⟩ | ⟨w, h⟩
  · exact Or.inl (key _ _ _ h)
  · exact Or.inr (key _ _ _ h)

/-! ### Doubles -/

/-- the factor 0.9 -/
theorem ninety_real : |(Num.c090 : Dbl).real - 9 / 10| ≤ 1 / 2 ^ 53 ∧ (Num.c090 : Dbl).Finite := by
  have hf : (Dbl.roundInt 90 (10 ^ 2) 0).Finite := by decide +kernel
  refine ⟨?_, hf⟩
  have h2 := Dbl.roundInt_error_any (n := 90) (d := 10 ^ 2) (e := 0) (by norm_num) hf
  have ht : (2 : ℚ) ^ (-1075 : Int) ≤ 1 / 2 ^ 60 := by
    rw [show (1 / 2 ^ 60 : ℚ) = (2 : ℚ) ^ (-60 : Int) by norm_num]
    exact zpow_le_zpow_right₀ (by norm_num) (by norm_num)
  have h3 : |(Dbl.roundInt 90 (10 ^ 2) 0).value - 9 / 10| ≤ 1 / 2 ^ 53 := by
    generalize (2 : ℚ) ^ (-1075 : Int) = t at h2 ht
    generalize (Dbl.roundInt 90 (10 ^ 2) 0).value = w at h2 ⊢
    norm_num at h2 ⊢
    linarith
  rw [← Rat.cast_le (K := ℝ)] at h3
  push_cast at h3
  exact h3

/-- the coupling by distance -/
theorem distance_near {D : Nat} (hD : D ≤ 16) {c d : List Dbl} (hc : c.length = D) (hd : d.length = D)
    (fc : ∀ x ∈ c, x.Finite) (fd : ∀ x ∈ d, x.Finite) (hm : Moderate (pointOfDbl D c - pointOfDbl D d)) :
    (Num.div (Num.ofNat 1) (dist2 c d)).Finite ∧
      |(Num.div (Num.ofNat 1) (dist2 c d)).real - 1 / dist (pointOfDbl D c) (pointOfDbl D d) ^ 2| ≤
        1 / 2 ^ 44 * (1 / dist (pointOfDbl D c) (pointOfDbl D d) ^ 2) ∧
      (2 : ℝ) ^ (-900 : Int) ≤ 1 / dist (pointOfDbl D c) (pointOfDbl D d) ^ 2 ∧
      1 / dist (pointOfDbl D c) (pointOfDbl D d) ^ 2 ≤ (2 : ℝ) ^ (900 : Int) := by
  obtain ⟨V, _, hv, _, hS, hvn⟩ := vecFrom_near hd hc fd fc hm
  obtain ⟨q1, q2⟩ := hm.sq
  obtain ⟨s1, s2⟩ := Dbl.scalarSelf_near hvn (by omega) hS q1 q2
  rw [dist2_scalar, dist_eq_norm]
  generalize scalar (vecFrom d c) (vecFrom d c) = s at *
  generalize ‖pointOfDbl D c - pointOfDbl D d‖ ^ 2 = S at *
  have hS0 : 0 < S := lt_of_lt_of_le (by positivity) q1
  have hsp : 0 < s.real := by
    have := (abs_le.1 s2).1
    have g : 1 / 2 ^ 45 * S ≤ 1 / 2 * S := mul_le_mul_of_nonneg_right (by norm_num) hS0.le
    linarith
  have hi2 : 1 / S ≤ (2 : ℝ) ^ (900 : Int) := by
    rw [zpow_neg] at q1
    rw [one_div]
    exact inv_le_of_inv_le₀ (by positivity) q1
  have hi1 : (2 : ℝ) ^ (-900 : Int) ≤ 1 / S := by
    rw [one_div, zpow_neg]
    exact inv_anti₀ hS0 q2
  have hone : (Num.ofNat 1 : Dbl).Finite ∧ (Num.ofNat 1 : Dbl).real = 1 := by
    have := Dbl.ofNat_exact (n := 1) (by norm_num)
    refine ⟨this.1, ?_⟩
    unfold Dbl.real
    show ((Dbl.roundInt ((1 : Nat) : Int) 1 0).value : ℝ) = 1
    rw [this.2]
    norm_num
  have hsinv : 0 < 1 / s.real := by positivity
  have hSinv : 0 < 1 / S := by positivity
  have e3 : 1 / s.real ≤ (1 + 1 / 2 ^ 44) * (1 / S) := by
    rw [mul_one_div, div_le_div_iff₀ hsp hS0, one_mul]
    have := (abs_le.1 s2).1
    nlinarith
  have hn : S * (1 / S) = 1 := by field_simp
  have e4 : |1 / s.real - 1 / S| ≤ 1 / 2 ^ 45 * (1 / s.real) := by
    have : 1 / s.real - 1 / S = -((s.real - S) * ((1 / s.real) * (1 / S))) := by field_simp; ring
    rw [this, abs_neg, abs_mul, abs_of_pos (show 0 < 1 / s.real * (1 / S) by positivity)]
    calc |s.real - S| * (1 / s.real * (1 / S)) ≤ 1 / 2 ^ 45 * S * (1 / s.real * (1 / S)) := mul_le_mul_of_nonneg_right s2 (by positivity)
      _ = 1 / 2 ^ 45 * (1 / s.real) * (S * (1 / S)) := by ring
      _ = _ := by rw [hn, mul_one]
  have hbig : |(Num.ofNat 1 : Dbl).real / s.real| ≤ (2 : ℝ) ^ (1000 : Int) := by
    rw [hone.2, abs_of_pos hsinv]
    have : (1 + 1 / 2 ^ 44) * (1 / S) ≤ 2 * (1 / S) := mul_le_mul_of_nonneg_right (by norm_num) hSinv.le
    have g : (2 : ℝ) * (2 : ℝ) ^ (900 : Int) = (2 : ℝ) ^ (901 : Int) := by
      rw [show (901 : Int) = 1 + 900 by norm_num, zpow_add₀ (by norm_num), zpow_one]
    have h3 : (2 : ℝ) ^ (901 : Int) ≤ (2 : ℝ) ^ (1000 : Int) := zpow_le_zpow_right₀ (by norm_num) (by norm_num)
    exact e3.trans (this.trans ((mul_le_mul_of_nonneg_left hi2 (by norm_num)).trans (g.le.trans h3)))
  obtain ⟨d1, d2⟩ := Dbl.real_div hone.1 s1 hsp.ne' hbig
  refine ⟨d1, ?_, hi1, hi2⟩
  rw [hone.2, abs_of_pos hsinv] at d2
  have ht : Dbl.tiny ≤ 1 / 2 ^ 53 * (1 / S) := (Dbl.tiny_le (k := 900) (by norm_num)).trans (mul_le_mul_of_nonneg_left hi1 (by norm_num))
  have g1 := abs_sub_le (Num.div (Num.ofNat 1) s).real (1 / s.real) (1 / S)
  generalize 1 / s.real = x at *
  generalize 1 / S = y at *
  linarith

theorem dblLt_real {x y : Dbl} : Num.lt x y = true ↔ x.real < y.real := by
  unfold Dbl.real
  rw [dbl_arith.lt, decide_eq_true_iff, Rat.cast_lt]

theorem dblLt_real_false {x y : Dbl} : Num.lt x y = false ↔ y.real ≤ x.real := by
  rw [← not_lt, ← dblLt_real]
  cases Num.lt x y <;> simp

/-- **C86** (double precision) The same for doubles, with `10/9` up to `2^-40`, if the centers
of neighbours are neither extremely close nor extremely far. -/
theorem C86_double {P : Platform} {a : Args Dbl} {o : Outs} {n D : Nat} (hm : ValidMesh a n)
    (hb : BuildsLines a n) (hns : NoSelfLoop a.rowPtr a.colInd) (hk : a.coupling = .minDistance)
    (hf : a.forceDir = false) (hD : D ≤ 16) (hc : ∀ c ∈ a.centers, c.length = D ∧ ∀ x ∈ c, x.Finite)
    (hmod : ∀ i j ci cj, Adj a.rowPtr a.colInd i j → a.centers[i]? = some ci → a.centers[j]? = some cj →
      Moderate (pointOfDbl D ci - pointOfDbl D cj)) :
    ∃ fls, fineLines P a o = .ok fls ∧ ∀ l ∈ fls, ∀ k u v : Nat, l[k]? = some u → l[k + 1]? = some v →
      NearlyNearest a (pointOfDbl D) (10 / 9 + 1 / 2 ^ 40) u v ∨ NearlyNearest a (pointOfDbl D) (10 / 9 + 1 / 2 ^ 40) v u := by
  have hmc : meantCoupling a = .minDistance := by
    unfold meantCoupling
    rw [if_neg (by rw [hk]; rintro ⟨h, _⟩; cases h), hk]
  have near : ∀ {i j : Nat} {ci cj : List Dbl}, Adj a.rowPtr a.colInd i j → a.centers[i]? = some ci → a.centers[j]? = some cj → _ :=
    fun {i j ci cj} hadj h1 h2 => distance_near hD (hc _ (List.mem_of_getElem? h1)).1 (hc _ (List.mem_of_getElem? h2)).1
      (hc _ (List.mem_of_getElem? h1)).2 (hc _ (List.mem_of_getElem? h2)).2 (hmod i j ci cj hadj h1 h2)
  have zero := Dbl.real_ofNat_zero
  have hp : NonnegCouplings (graphOf a) (meantCoupling a) := by
    rw [hmc]
    intro i j w hw
    obtain ⟨hadj, ci, cj, h1, h2, rfl⟩ := couplingOf_distance hw
    obtain ⟨_, n2, n3, _⟩ := near hadj h1 h2
    rw [dblLt_real_false, zero.2]
    have p : 0 < 1 / dist (pointOfDbl D ci) (pointOfDbl D cj) ^ 2 := lt_of_lt_of_le (by positivity) n3
    have := (abs_le.1 n2).1
    nlinarith
  obtain ⟨fls, h1, h2⟩ := lines_linked dbl_lawful (P := P) (o := o) hm hb hns hp hf
  have key : ∀ i j w, StrongCoupling (graphOf a) (meantCoupling a) i j w → NearlyNearest a (pointOfDbl D) (10 / 9 + 1 / 2 ^ 40) i j := by
    rw [hmc]
    rintro i j w ⟨hw, m, ⟨hm1, hm2⟩, hlt⟩
    obtain ⟨hadj, ci, cj, hi, hj, rfl⟩ := couplingOf_distance hw
    refine ⟨hadj, ?_⟩
    intro x ci' cj' cx hx hi' hj' hcx
    have hi : a.centers[i]? = some ci := hi
    have hj : a.centers[j]? = some cj := hj
    rw [hi] at hi'
    rw [hj] at hj'
    cases hi'
    cases hj'
    obtain ⟨k, hf⟩ := Adj.faceAt (g := graphOf a) hx
    have h3 := hm1 x _ ⟨k, hf, ci, cx, hi, hcx, rfl⟩
    obtain ⟨_, j2, j3, _⟩ := near hadj hi hj
    obtain ⟨_, x2, x3, x4⟩ := near hx hi hcx
    rw [dblLt_real_false] at h3
    rw [dblLt_real] at hlt
    -- the strongest coupling is a number of moderate size
    have hmf : m.Finite ∧ m.real ≤ (2 : ℝ) ^ (901 : Int) := by
      rcases hm2 with ⟨y, hy⟩ | rfl
      · obtain ⟨hay, ci', cy, hi', hcy, rfl⟩ := couplingOf_distance hy
        obtain ⟨y1, y2, _, y4⟩ := near hay hi' hcy
        refine ⟨y1, ?_⟩
        have g := (abs_le.1 y2).2
        have p : (0 : ℝ) ≤ 1 / dist (pointOfDbl D ci') (pointOfDbl D cy) ^ 2 := by positivity
        rw [show (901 : Int) = 1 + 900 by norm_num, zpow_add₀ (by norm_num), zpow_one]
        generalize (2 : ℝ) ^ (900 : Int) = Z at *
        generalize 1 / dist (pointOfDbl D ci') (pointOfDbl D cy) ^ 2 = t at *
        linarith
      · refine ⟨zero.1, ?_⟩
        rw [zero.2]
        positivity
    have pj : 0 < dist (pointOfDbl D ci) (pointOfDbl D cj) ^ 2 := by
      have : 0 < 1 / dist (pointOfDbl D ci) (pointOfDbl D cj) ^ 2 := lt_of_lt_of_le (by positivity) j3
      exact one_div_pos.1 this
    have px : 0 < dist (pointOfDbl D ci) (pointOfDbl D cx) ^ 2 := by
      have : 0 < 1 / dist (pointOfDbl D ci) (pointOfDbl D cx) ^ 2 := lt_of_lt_of_le (by positivity) x3
      exact one_div_pos.1 this
    have hx0 : 0 < 1 / dist (pointOfDbl D ci) (pointOfDbl D cx) ^ 2 := by positivity
    have hm0 : 1 / 2 * (1 / dist (pointOfDbl D ci) (pointOfDbl D cx) ^ 2) ≤ m.real := by
      have := (abs_le.1 x2).1
      generalize 1 / dist (pointOfDbl D ci) (pointOfDbl D cx) ^ 2 = t at *
      linarith
    have hmpos : 0 < m.real := by linarith
    obtain ⟨c1, c2⟩ := ninety_real
    have c3 := abs_le.1 c1
    have hprod : |(Num.c090 : Dbl).real * m.real| ≤ (2 : ℝ) ^ (1000 : Int) := by
      rw [abs_mul, abs_of_pos hmpos]
      have g1 : |(Num.c090 : Dbl).real| ≤ 1 := by
        rw [abs_le]
        constructor <;> linarith
      have g2 : |(Num.c090 : Dbl).real| * m.real ≤ 1 * m.real := mul_le_mul_of_nonneg_right g1 hmpos.le
      have g3 : (2 : ℝ) ^ (901 : Int) ≤ (2 : ℝ) ^ (1000 : Int) := zpow_le_zpow_right₀ (by norm_num) (by norm_num)
      rw [one_mul] at g2
      exact g2.trans (hmf.2.trans g3)
    obtain ⟨_, p2⟩ := Dbl.real_mul c2 hmf.1 hprod
    have ht : Dbl.tiny ≤ 1 / 2 ^ 52 * m.real := by
      refine (Dbl.tiny_le (k := 900) (by norm_num)).trans ?_
      have := mul_le_mul_of_nonneg_left x3 (show (0 : ℝ) ≤ 1 / 2 ^ 53 by norm_num)
      linarith
    have hc0 : 0 ≤ (Num.c090 : Dbl).real * m.real := mul_nonneg (by linarith) hmpos.le
    rw [abs_of_nonneg hc0] at p2
    have p3 := (abs_le.1 p2).1
    have hcm : (9 / 10 - 1 / 2 ^ 53) * m.real ≤ (Num.c090 : Dbl).real * m.real := mul_le_mul_of_nonneg_right (by linarith) hmpos.le
    have hcm2 : (Num.c090 : Dbl).real * m.real ≤ 1 * m.real := mul_le_mul_of_nonneg_right (by linarith) hmpos.le
    have h5 : (9 / 10 - 1 / 2 ^ 50) * m.real ≤ (Num.mul Num.c090 m).real := by linarith
    have h6 := (abs_le.1 j2).2
    have h7 := (abs_le.1 x2).1
    have h8 : (9 / 10 - 1 / 2 ^ 43) * (1 / dist (pointOfDbl D ci) (pointOfDbl D cx) ^ 2) ≤
        (1 + 1 / 2 ^ 44) * (1 / dist (pointOfDbl D ci) (pointOfDbl D cj) ^ 2) := by
      have h9 : (9 / 10 - 1 / 2 ^ 50) * ((1 - 1 / 2 ^ 44) * (1 / dist (pointOfDbl D ci) (pointOfDbl D cx) ^ 2)) ≤ (9 / 10 - 1 / 2 ^ 50) * m.real :=
        mul_le_mul_of_nonneg_left (by linarith) (by norm_num)
      generalize 1 / dist (pointOfDbl D ci) (pointOfDbl D cx) ^ 2 = t at *
      linarith
    generalize dist (pointOfDbl D ci) (pointOfDbl D cj) ^ 2 = s at *
    generalize dist (pointOfDbl D ci) (pointOfDbl D cx) ^ 2 = t at *
    rw [mul_one_div, mul_one_div, div_le_div_iff₀ px pj] at h8
    have h10 : (9 / 10 - 1 / 2 ^ 43) * s ≤ (9 / 10 - 1 / 2 ^ 43) * ((10 / 9 + 1 / 2 ^ 40) * t) := by
      refine h8.trans ?_
      rw [← mul_assoc]
      exact mul_le_mul_of_nonneg_right (by norm_num) px.le
    exact le_of_mul_le_mul_left h10 (by norm_num)
  refine ⟨fls, h1, fun l hl k u v hu hv => ?_⟩
  rcases h2 l hl k u v hu hv with ⟨w, h⟩ | ⟨w, h⟩
  · exact Or.inl (key _ _ _ h)
  · exact Or.inr (key _ _ _ h)

/-! ### Concrete cases -/

/-- two by two cells, three times as far from each other in one direction as in the other; all face weights are the same -/
def exStretched : Args Dbl :=
  { exCorner false with
    rowPtr := [0, 2, 4, 6, 8]
    colInd := [1, 2, 0, 3, 0, 3, 1, 2]
    values := List.replicate 8 (Dbl.dec 1 0)
    volumes := List.replicate 4 (Dbl.dec 1 0)
    centers := [[Dbl.dec 0 0, Dbl.dec 0 0], [Dbl.dec 0 0, Dbl.dec 1 0], [Dbl.dec 3 0, Dbl.dec 0 0], [Dbl.dec 3 0, Dbl.dec 1 0]]
    prio := [Dbl.dec 4 0, Dbl.dec 3 0, Dbl.dec 2 0, Dbl.dec 1 0]
    compliant := [0, 1, 2, 3]
    nBnd := [2, 2, 2, 2]
    coupling := .minDistance }

theorem exStretched_crs : ValidCRS 4 exStretched.rowPtr exStretched.colInd := checkCRS_sound (by decide)

theorem exStretched_valid : ValidMesh exStretched 4 :=
  ⟨by decide, exStretched_crs, checkSym_sound exStretched_crs (by decide), Or.inr dbl_lawful, rfl, rfl, rfl, rfl, rfl, 2, by decide⟩

theorem exStretched_lines : BuildsLines exStretched 4 where
  on := rfl
  build := rfl
  compliant := by decide
  isolated _ _ i hi := by
    have : i = 0 ∨ i = 1 ∨ i = 2 ∨ i = 3 := by simpa [exStretched] using hi
    rcases this with rfl | rfl | rfl | rfl
    · exact ⟨1, 0, 2, 0, rfl, rfl, by omega, by omega, rfl⟩
    · exact ⟨0, 2, 4, 2, rfl, rfl, by omega, by omega, rfl⟩
    · exact ⟨0, 4, 6, 4, rfl, rfl, by omega, by omega, rfl⟩
    · exact ⟨1, 6, 8, 6, rfl, rfl, by omega, by omega, rfl⟩

theorem exStretched_moderate (i j : Nat) (ci cj : List Dbl) (h : Adj exStretched.rowPtr exStretched.colInd i j)
    (hi : exStretched.centers[i]? = some ci) (hj : exStretched.centers[j]? = some cj) : Moderate (pointOfDbl 2 ci - pointOfDbl 2 cj) := by
  have m1 : ∀ x : EuclideanSpace ℝ (Fin 2), (‖x‖ = 1 ∨ ‖x‖ = 3) → Moderate x := by
    intro x hx
    have a1 : (2 : ℝ) ^ (-450 : Int) ≤ 1 := le_trans (zpow_le_zpow_right₀ (by norm_num) (by norm_num : (-450 : Int) ≤ 0)) (by norm_num)
    have a2 : (4 : ℝ) ≤ 2 ^ (450 : Int) := le_trans (by norm_num) (zpow_le_zpow_right₀ (by norm_num : (1 : ℝ) ≤ 2) (by norm_num : (2 : Int) ≤ 450))
    rcases hx with hx | hx <;> refine ⟨?_, ?_⟩ <;> rw [hx]
    · exact a1
    · exact le_trans (by norm_num) a2
    · exact a1.trans (by norm_num)
    · exact le_trans (by norm_num) a2
  have r0 : (Dbl.dec 0 0).real = 0 := by have := dec_real (n := 0) (by norm_num); simpa using this
  have r1 : (Dbl.dec 1 0).real = 1 := by have := dec_real (n := 1) (by norm_num); simpa using this
  have r3 : (Dbl.dec 3 0).real = 3 := by have := dec_real (n := 3) (by norm_num); simpa using this
  have s9 : Real.sqrt 9 = 3 := by rw [show (9 : ℝ) = 3 ^ 2 by norm_num, Real.sqrt_sq (by norm_num)]
  obtain ⟨b, e, k, hb, he, h1, h2, hk⟩ := h
  have hi' : i < 4 := by
    have := (List.getElem?_eq_some_iff.1 hi).1
    simpa [exStretched] using this
  apply m1
  rw [EuclideanSpace.norm_eq]
  rcases (by omega : i = 0 ∨ i = 1 ∨ i = 2 ∨ i = 3) with rfl | rfl | rfl | rfl <;> cases hb <;> cases he
  · rcases (by omega : k = 0 ∨ k = 1) with rfl | rfl <;> cases hk <;> cases hi <;> cases hj <;>
      norm_num [pointOfDbl, pointOf, coordsOf, r0, r1, r3, s9, Fin.sum_univ_two]
  · rcases (by omega : k = 2 ∨ k = 3) with rfl | rfl <;> cases hk <;> cases hi <;> cases hj <;>
      norm_num [pointOfDbl, pointOf, coordsOf, r0, r1, r3, s9, Fin.sum_univ_two]
  · rcases (by omega : k = 4 ∨ k = 5) with rfl | rfl <;> cases hk <;> cases hi <;> cases hj <;>
      norm_num [pointOfDbl, pointOf, coordsOf, r0, r1, r3, s9, Fin.sum_univ_two]
  · rcases (by omega : k = 6 ∨ k = 7) with rfl | rfl <;> cases hk <;> cases hi <;> cases hj <;>
      norm_num [pointOfDbl, pointOf, coordsOf, r0, r1, r3, s9, Fin.sum_univ_two]

example (P : Platform) (o : Outs) := C86_double (P := P) (o := o) exStretched_valid exStretched_lines
  (checkNoLoop_sound exStretched_crs (by decide)) rfl rfl (D := 2) (by omega)
  (show ∀ c ∈ exStretched.centers, c.length = 2 ∧ ∀ x ∈ c, x.Finite by decide) exStretched_moderate

/-- the lines join the close cells -/
example : fineLines exPlatform exStretched ⟨[], [], []⟩ = .ok [[0, 1], [2, 3]] := by decide +kernel

example (P : Platform) (o : Outs) := C86_nearest (lo := 0) (hi := 1000) (P := P) (o := o) (a := { exReal with coupling := .minDistance, forceDir := false }) (n := 6) (D := 2)
  (let _ := realNum 0 1000; { exReal_valid with }) (let _ := realNum 0 1000; { exReal_builds.1 with isolated := fun _ h => by cases h })
  exCols_noLoop rfl rfl (by
    intro c hc
    obtain ⟨d, hd, rfl⟩ := List.mem_map.1 (show c ∈ exCols.centers.map (fun c => c.map (fun x : Int => (x : ℝ))) from hc)
    rw [List.length_map]
    exact (by decide : ∀ d ∈ exCols.centers, d.length = 2) d hd) (by
    intro i j ci cj h hi hj he
    have hi : (exCols.centers.map (fun c => c.map (fun x : Int => (x : ℝ))))[i]? = some ci := hi
    have hj : (exCols.centers.map (fun c => c.map (fun x : Int => (x : ℝ))))[j]? = some cj := hj
    rw [List.getElem?_map] at hi hj
    obtain ⟨di, hdi, rfl⟩ := Option.map_eq_some_iff.1 hi
    obtain ⟨dj, hdj, rfl⟩ := Option.map_eq_some_iff.1 hj
    have := List.map_injective_iff.2 (Int.cast_injective (α := ℝ)) he
    subst this
    have hne : i = j := by
      have l1 := (List.getElem?_eq_some_iff.1 hdi).1
      have l2 := (List.getElem?_eq_some_iff.1 hdj).1
      have hnd : exCols.centers.Nodup := by decide
      exact (hnd.getElem_inj_iff).1 ((List.getElem?_eq_some_iff.1 hdi).2.trans (List.getElem?_eq_some_iff.1 hdj).2.symm)
    subst hne
    exact exCols_noLoop _ h)

end CoMMA
