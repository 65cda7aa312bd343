import Verif.Spec.Whole
import Verif.Lemmas.Whole
import Verif.Lemmas.Transfer
import Verif.Lemmas.Units
import Verif.Lemmas.DataUse
import Mathlib.Data.Real.Basic
/-! # Aspect ratios of whole-number data, in doubles and in real numbers -/

set_option linter.unusedSectionVars false

namespace CoMMA

open Dbl

/-- the numbers are the real numbers, with searches that start below 1 and above 2 ^ 51 -/
structure ExactReal [Num ℝ] : Prop where
  lt : ∀ x y : ℝ, Num.lt x y = decide (x < y)
  add : ∀ x y : ℝ, Num.add x y = x + y
  sub : ∀ x y : ℝ, Num.sub x y = x - y
  mul : ∀ x y : ℝ, Num.mul x y = x * y
  div : ∀ x y : ℝ, Num.div x y = x / y
  reduce : ∀ l : List ℝ, Num.reduce l = l.sum
  ofNat : ∀ n : Nat, (Num.ofNat n : ℝ) = n
  lmin : (Num.lmin : ℝ) < 1
  lmax : (2 : ℝ) ^ 51 < Num.lmax

/-- the double of a whole number -/
def dblOf (z : Int) : Dbl := roundInt z 1 0

/-- a whole number of size at most `b`, as double and as real number -/
def Whole (b : Nat) (x : Dbl) (x' : ℝ) : Prop := ∃ z : Int, x = dblOf z ∧ x' = z ∧ z.natAbs ≤ b

/-- a fraction with numerator and denominator bounded by `P` and `Q`, rounded and exact -/
def NearFrac (P Q : Nat) (x : Dbl) (x' : ℝ) : Prop :=
  ∃ (p : Int) (q : Nat), x = roundInt p q 0 ∧ x' = (p : ℝ) / q ∧ 0 < q ∧ p.natAbs ≤ P ∧ q ≤ Q

theorem absLe {z : Int} {b : Nat} (h : z.natAbs ≤ b) (hb : b ≤ 2 ^ 53) : |z| ≤ 2 ^ 53 := by
  rw [Int.abs_eq_natAbs]; omega

section Numbers

variable [Num ℝ] (hI : ExactReal) {b c : Nat} {x y : Dbl} {x' y' : ℝ}

theorem Whole.mono {b c : Nat} {x : Dbl} {x' : ℝ} (h : Whole b x x') (hb : b ≤ c) : Whole c x x' := by
  obtain ⟨z, h1, h2, h3⟩ := h
  exact ⟨z, h1, h2, h3.trans hb⟩

include hI

theorem whole_nat (n : Nat) : Whole n (Num.ofNat n) (Num.ofNat n : ℝ) :=
  ⟨n, rfl, by rw [hI.ofNat]; simp, by simp⟩

theorem Whole.add (h1 : Whole b x x') (h2 : Whole c y y') (hb : b ≤ 2 ^ 53) (hc : c ≤ 2 ^ 53) :
    Whole (b + c) (Num.add x y) (Num.add x' y') := by
  obtain ⟨z, rfl, rfl, a1⟩ := h1
  obtain ⟨t, rfl, rfl, a2⟩ := h2
  exact ⟨z + t, whole_add (absLe a1 hb) (absLe a2 hc), by rw [hI.add]; push_cast; rfl, by omega⟩

theorem Whole.sub (h1 : Whole b x x') (h2 : Whole c y y') (hb : b ≤ 2 ^ 53) (hc : c ≤ 2 ^ 53) :
    Whole (b + c) (Num.sub x y) (Num.sub x' y') := by
  obtain ⟨z, rfl, rfl, a1⟩ := h1
  obtain ⟨t, rfl, rfl, a2⟩ := h2
  exact ⟨z - t, whole_sub (absLe a1 hb) (absLe a2 hc), by rw [hI.sub]; push_cast; rfl, by omega⟩

theorem Whole.mul (h1 : Whole b x x') (h2 : Whole c y y') (hb : b ≤ 2 ^ 53) (hc : c ≤ 2 ^ 53) :
    Whole (b * c) (Num.mul x y) (Num.mul x' y') := by
  obtain ⟨z, rfl, rfl, a1⟩ := h1
  obtain ⟨t, rfl, rfl, a2⟩ := h2
  exact ⟨z * t, whole_mul (absLe a1 hb) (absLe a2 hc), by rw [hI.mul]; push_cast; rfl,
    by rw [Int.natAbs_mul]; exact Nat.mul_le_mul a1 a2⟩

theorem Whole.div (h1 : Whole b x x') (h2 : Whole c y y') (hb : b ≤ 2 ^ 53) (hc : c ≤ 2 ^ 53) (h0 : 1 ≤ y') :
    NearFrac b c (Num.div x y) (Num.div x' y') := by
  obtain ⟨z, rfl, rfl, a1⟩ := h1
  obtain ⟨t, rfl, rfl, a2⟩ := h2
  have ht : 1 ≤ t := by exact_mod_cast h0
  obtain ⟨k, rfl⟩ := Int.eq_ofNat_of_zero_le (show 0 ≤ t by omega)
  have ha : k ≤ c := by simpa using a2
  refine ⟨z, k, whole_div (absLe a1 hb) (ha.trans hc) (by omega), ?_, by omega, a1, ha⟩
  rw [hI.div]; push_cast; rfl

theorem Whole.lt (h1 : Whole b x x') (h2 : Whole c y y') (hb : b ≤ 2 ^ 53) (hc : c ≤ 2 ^ 53) :
    Num.lt x' y' = Num.lt x y := by
  obtain ⟨z, rfl, rfl, a1⟩ := h1
  obtain ⟨t, rfl, rfl, a2⟩ := h2
  rw [hI.lt]
  show decide _ = decide _
  rw [decide_eq_decide, ← value_lt]
  show (z : ℝ) < t ↔ (roundInt z 1 0).value < (roundInt t 1 0).value
  rw [(whole_exact (absLe a1 hb)).2, (whole_exact (absLe a2 hc)).2, Int.cast_lt, Int.cast_lt]

omit hI in
theorem Whole.near (h : Whole b x x') : NearFrac b 1 x x' := by
  obtain ⟨z, rfl, rfl, a1⟩ := h
  exact ⟨z, 1, rfl, by simp, by omega, a1, le_rfl⟩

theorem near_order {P Q : Nat} (h : P * Q ≤ 2 ^ 51) (hQ : Q ≤ 2 ^ 51) (h1 : 1 ≤ Q) : OrderAlike (NearFrac P Q) := by
  refine ⟨?_, ⟨0, 1, rfl, by rw [hI.ofNat]; simp, by omega, by simp, h1⟩⟩
  rintro x x' y y' ⟨p, q, rfl, rfl, a1, a2, a3⟩ ⟨s, t, rfl, rfl, b1, b2, b3⟩
  rw [hI.lt]
  show decide _ = decide _
  rw [decide_eq_decide]
  have cast : ((p : ℝ) / q < (s : ℝ) / t) ↔ ((p : ℚ) / q < (s : ℚ) / t) := by
    rw [← Rat.cast_lt (K := ℝ)]; push_cast; rfl
  rw [cast]
  constructor
  · intro hlt
    refine round_frac_lt a1 b1 ((Nat.mul_le_mul a2 b3).trans h) ((Nat.mul_le_mul b2 a3).trans h) ?_ hlt
    exact (Nat.mul_le_mul (a3.trans hQ) (b3.trans hQ)).trans (by norm_num)
  · intro hlt
    by_contra hcon
    have := roundInt_mono b1 a1 (e := 0) (e' := 0) (n := s) (n' := p) (by simpa using hcon)
    omega

/-- whole numbers that are at least 1 lie between the start values of the searches -/
theorem Whole.start (h : Whole b x x') (hb : b ≤ 2 ^ 51) (h1 : 1 ≤ x') :
    Num.lt Num.lmin x = true ∧ Num.lt x Num.lmax = true ∧ Num.lt Num.lmin x' = true ∧ Num.lt x' Num.lmax = true := by
  obtain ⟨z, rfl, rfl, a1⟩ := h
  have hz : 1 ≤ z := by exact_mod_cast h1
  obtain ⟨f1, f2⟩ := whole_exact (absLe a1 (hb.trans (by norm_num)))
  rw [hI.lt, hI.lt]
  refine ⟨?_, ?_, decide_eq_true (hI.lmin.trans_le h1), decide_eq_true (lt_of_le_of_lt ?_ hI.lmax)⟩
  · show decide ((2 ^ 52 : Int) < (roundInt z 1 0).code) = true
    refine decide_eq_true ?_
    show (⟨2 ^ 52⟩ : Dbl).code < _
    rw [← value_lt, f2, value_small (by norm_num)]
    have e : (((2 : Int) ^ 52 : Int) : ℚ) * (2 : ℚ) ^ (-1074 : Int) = (2 : ℚ) ^ (-1022 : Int) := by
      rw [Int.cast_pow, Int.cast_ofNat, ← zpow_natCast, ← zpow_add₀ (by norm_num)]
      congr 1
    rw [e]
    have h2 : (1 : ℚ) ≤ z := by exact_mod_cast hz
    refine lt_of_lt_of_le ?_ h2
    have := zpow_lt_zpow_right₀ (a := (2 : ℚ)) (by norm_num) (show (-1022 : Int) < 0 by norm_num)
    rwa [zpow_zero] at this
  · show decide ((roundInt z 1 0).code < (infC - 1 : Int)) = true
    refine decide_eq_true ?_
    show _ < (⟨infC - 1⟩ : Dbl).code
    rw [← value_lt, f2]
    have e : (⟨infC - 1⟩ : Dbl) = largest := by decide
    rw [e]
    have h2 : (z : ℚ) ≤ 2 ^ 51 := by
      have : z ≤ 2 ^ 51 := by omega
      exact_mod_cast this
    refine lt_of_le_of_lt h2 (lt_of_lt_of_le ?_ dbl_largest)
    rw [show (2 : ℚ) ^ 51 = (2 : ℚ) ^ (51 : Int) by norm_num]
    exact zpow_lt_zpow_right₀ (by norm_num) (by norm_num)
  · have : z ≤ 2 ^ 51 := by omega
    exact_mod_cast this

/-! ## Distances -/

theorem dist_fold {M : Nat} (hM : M * M ≤ 2 ^ 51) : ∀ (c d : List Int), c.length = d.length →
    (∀ x ∈ c, x.natAbs ≤ 2 ^ 53) → (∀ x ∈ d, x.natAbs ≤ 2 ^ 53) →
    (∀ (k : Nat) x y, c[k]? = some x → d[k]? = some y → (x - y).natAbs ≤ M) →
    ∀ (b : Nat) (s : Dbl) (s' : ℝ), b + c.length * (M * M) ≤ 2 ^ 53 → Whole b s s' →
    Whole (b + c.length * (M * M))
        ((List.zipWith (fun x y => Num.mul (Num.sub x y) (Num.sub x y)) (c.map dblOf) (d.map dblOf)).foldl Num.add s)
        ((List.zipWith (fun x y => Num.mul (Num.sub x y) (Num.sub x y)) (c.map (fun z : Int => (z : ℝ)))
          (d.map (fun z : Int => (z : ℝ)))).foldl Num.add s') ∧
      s' ≤ ((List.zipWith (fun x y => Num.mul (Num.sub x y) (Num.sub x y)) (c.map (fun z : Int => (z : ℝ)))
          (d.map (fun z : Int => (z : ℝ)))).foldl Num.add s') ∧
      (c ≠ d → s' + 1 ≤ ((List.zipWith (fun x y => Num.mul (Num.sub x y) (Num.sub x y)) (c.map (fun z : Int => (z : ℝ)))
          (d.map (fun z : Int => (z : ℝ)))).foldl Num.add s')) := by
  intro c
  induction c with
  | nil =>
    intro d hd _ _ _ b s s' _ hs
    obtain rfl : d = [] := by simpa using hd.symm
    exact ⟨by simpa using hs, by simp, fun h => absurd rfl h⟩
  | cons x c ih =>
    intro d hd hc hd' hk b s s' hb hs
    cases d with
    | nil => simp at hd
    | cons y d =>
      simp only [List.length_cons, Nat.add_mul, Nat.one_mul] at hb hd
      have wx : Whole (2 ^ 53) (dblOf x) (x : ℝ) := ⟨x, rfl, rfl, hc x (by simp)⟩
      have wy : Whole (2 ^ 53) (dblOf y) (y : ℝ) := ⟨y, rfl, rfl, hd' y (by simp)⟩
      obtain ⟨z, e1, e2, _⟩ := wx.sub hI wy le_rfl le_rfl
      have e3 : z = x - y := by
        rw [hI.sub] at e2
        have : ((x - y : Int) : ℝ) = (z : ℝ) := by push_cast; exact e2
        exact_mod_cast this.symm
      have wz : Whole M (Num.sub (dblOf x) (dblOf y)) (Num.sub (x : ℝ) (y : ℝ)) :=
        ⟨z, e1, e2, by rw [e3]; exact hk 0 x y rfl rfl⟩
      have hM' : M ≤ 2 ^ 53 := by nlinarith
      have wm := wz.mul hI wz hM' hM'
      have ws := hs.add hI wm (by omega) (by omega)
      have er : Num.add s' (Num.mul (Num.sub (x : ℝ) (y : ℝ)) (Num.sub (x : ℝ) (y : ℝ))) = s' + (z : ℝ) * z := by
        rw [hI.add, hI.mul, e2]
      obtain ⟨g1, g2, g3⟩ := ih d (by omega) (fun t ht => hc t (by simp [ht])) (fun t ht => hd' t (by simp [ht]))
        (fun k t u h1 h2 => hk (k + 1) t u h1 h2) _ _ _ (by omega) ws
      simp only [List.map_cons, List.zipWith_cons_cons, List.foldl_cons]
      refine ⟨g1.mono (by simp only [List.length_cons, Nat.add_mul, Nat.one_mul]; omega), ?_, ?_⟩
      · refine le_trans ?_ g2
        rw [er]
        nlinarith
      · intro hne
        by_cases hxy : x = y
        · have hz : (z : ℝ) = 0 := by rw [e3, hxy]; simp
          have := g3 (fun h => hne (by rw [hxy, h]))
          rw [er, hz] at this
          rw [er, hz]
          linarith
        · refine le_trans ?_ g2
          rw [er]
          have hz : z ≠ 0 := by omega
          have : 1 ≤ z * z := by
            rcases lt_or_gt_of_ne hz with h | h <;> nlinarith
          have : (1 : ℝ) ≤ (z : ℝ) * z := by exact_mod_cast this
          linarith

theorem dist_whole {M : Nat} (hM : 3 * (M * M) ≤ 2 ^ 51) {c d : List Int} (hl : c.length = d.length) (h3 : c.length ≤ 3)
    (hc : ∀ x ∈ c, x.natAbs ≤ 2 ^ 53) (hd : ∀ x ∈ d, x.natAbs ≤ 2 ^ 53)
    (hk : ∀ (k : Nat) x y, c[k]? = some x → d[k]? = some y → (x - y).natAbs ≤ M) (hne : c ≠ d) :
    Whole (3 * (M * M)) (dist2 (c.map dblOf) (d.map dblOf)) (dist2 (c.map (fun z : Int => (z : ℝ))) (d.map (fun z : Int => (z : ℝ)))) ∧
      1 ≤ dist2 (c.map (fun z : Int => (z : ℝ))) (d.map (fun z : Int => (z : ℝ))) := by
  have h4 : c.length * (M * M) ≤ 3 * (M * M) := Nat.mul_le_mul_right _ h3
  obtain ⟨g1, _, g3⟩ := dist_fold hI (M := M) (by omega) c d hl hc hd hk 0 _ _ (by omega) (whole_nat hI 0)
  refine ⟨g1.mono (by omega), ?_⟩
  have := g3 hne
  rw [hI.ofNat] at this
  unfold dist2 sumUp
  rw [hI.ofNat]
  simpa using this

end Numbers

/-! ## Converted graphs -/

/-- a graph with data of another type -/
def Graph.convert {W : Type} (φ : Int → W) (z : Graph Int) : Graph W where
  nbC := z.nbC
  rowPtr := z.rowPtr
  colInd := z.colInd
  values := z.values.map φ
  volumes := z.volumes.map φ
  centers := z.centers.map (fun c => c.map φ)
  nBnd := z.nBnd
  dim := z.dim
  compliant := z.compliant

theorem graphOf_convert {W : Type} (φ : Int → W) (a : Args Int) : graphOf (a.convert φ) = (graphOf a).convert φ := rfl

theorem faceWeights_eq {n : Nat} {rp ci : List Nat} {values : List Int} (h : ValidCRS n rp ci) (hv : values.length = ci.length)
    {i : Nat} (hi : i < n) : rowL rp values i = faceWeights rp values i := by
  obtain ⟨b, e, hb, he, hbe, hec, h5⟩ := h.row hi values hv
  unfold rowL faceWeights
  rw [h5, hb, he]

/-- what is used of a graph with whole-number data -/
structure WholeGraph (z : Graph Int) (kind : ARKind) (V S K : Nat) : Prop where
  crs : ValidCRS z.nbC z.rowPtr z.colInd
  sym : SymmetricCRS z.rowPtr z.colInd
  sizes : MeshSizes z
  volumes : ∀ v ∈ z.volumes, 1 ≤ v ∧ v ≤ V
  coords : kind.geom = true → ∀ c ∈ z.centers, c.length ≤ 3 ∧ ∀ x ∈ c, x.natAbs ≤ 2 ^ 53
  distinct : kind.geom = true → z.centers.Nodup
  near : kind.geom = true → ∀ i j ci cj, Adj z.rowPtr z.colInd i j → z.centers[i]? = some ci → z.centers[j]? = some cj →
    ∀ (k : Nat) x y, ci[k]? = some x → cj[k]? = some y → (x - y).natAbs ≤ K
  weights : kind.weights = true → ∀ w ∈ z.values, 1 ≤ w
  sums : kind.weights = true → ∀ i < z.nbC, (faceWeights z.rowPtr z.values i).sum ≤ S
  mean : kind.weights = true → ∀ i b, z.nBnd[i]? = some b → 0 < b → b ≤ 3 ∧ faceWeights z.rowPtr z.values i ≠ [] ∧
    ((faceWeights z.rowPtr z.values i).length : Int) ∣ b * (faceWeights z.rowPtr z.values i).sum

variable {z : Graph Int} {kind : ARKind} {V S K : Nat}

theorem weights_convert {W : Type} [Num W] (φ : Int → W) (h : ValidCRS z.nbC z.rowPtr z.colInd) (hs : MeshSizes z) {i : Nat} (hi : i < z.nbC) :
    (z.convert φ).weights i = .ok ((faceWeights z.rowPtr z.values i).map φ) := by
  obtain ⟨h1, _⟩ := weights_eq (g := z.convert φ) h (by show (z.values.map φ).length = _; rw [List.length_map]; exact hs.values) hi
  rw [h1]
  obtain ⟨b, e, hb, he, hbe, hec, h5⟩ := h.row hi (z.values.map φ) (by rw [List.length_map]; exact hs.values)
  congr 1
  show rowL z.rowPtr (z.values.map φ) i = _
  unfold rowL faceWeights
  rw [h5, hb, he]
  simp [List.map_drop, List.map_take]

theorem nbNeighs_convert {W : Type} [Num W] (φ : Int → W) (h : ValidCRS z.nbC z.rowPtr z.colInd) (hs : MeshSizes z) {i : Nat} (hi : i < z.nbC) :
    (z.convert φ).nbNeighs i = .ok (faceWeights z.rowPtr z.values i).length := by
  obtain ⟨n, hn, hn'⟩ := nbNeighs_ok (g := z.convert φ) h hi
  rw [hn]
  obtain ⟨_, h2⟩ := weights_eq (g := z) h hs.values hi
  rw [← faceWeights_eq h hs.values hi, h2, hn']
  rfl

/-- the estimated weight of all faces of a cell -/
theorem totalWeight_convert {W : Type} [Num W] (φ : Int → W) (h : ValidCRS z.nbC z.rowPtr z.colInd) (hs : MeshSizes z) {i b : Nat}
    (hi : i < z.nbC) (hb : z.nBnd[i]? = some b) :
    (z.convert φ).totalWeight i = .ok (Num.add (Num.reduce ((faceWeights z.rowPtr z.values i).map φ))
      (if b = 0 then Num.ofNat 0
        else Num.div (Num.mul (Num.ofNat b) (Num.reduce ((faceWeights z.rowPtr z.values i).map φ)))
          (Num.ofNat (faceWeights z.rowPtr z.values i).length))) := by
  unfold Graph.totalWeight Graph.boundaryWeight
  rw [weights_convert φ h hs hi, ok_bind, show rd (z.convert φ).nBnd i = .ok b from rd_ok.2 hb, ok_bind]
  by_cases h0 : b = 0
  · rw [if_pos h0, if_pos h0]; rfl
  · rw [if_neg h0, if_neg h0, ok_bind, nbNeighs_convert φ h hs hi]; rfl

theorem sum_natAbs {l : List Int} (h : ∀ x ∈ l, 1 ≤ x) : ((l.map Int.natAbs).sum : Int) = l.sum ∧ (l.map (fun z => |z|)).sum = l.sum ∧ 0 ≤ l.sum := by
  induction l with
  | nil => simp
  | cons a l ih =>
    obtain ⟨h1, h2, h3⟩ := ih (fun x hx => h x (by simp [hx]))
    have := h a (by simp)
    simp only [List.map_cons, List.sum_cons]
    rw [h2, abs_of_nonneg (by omega)]
    refine ⟨?_, rfl, by omega⟩
    push_cast
    rw [h1, abs_of_nonneg (by omega)]

variable [Num ℝ] (hI : ExactReal)

include hI in
theorem reduce_whole {l : List Int} {b : Nat} (h1 : ∀ x ∈ l, 1 ≤ x) (hb : l.sum ≤ b) (h : b ≤ 2 ^ 53) :
    (Num.reduce (l.map dblOf) : Dbl) = dblOf l.sum ∧ (Num.reduce (l.map (fun z : Int => (z : ℝ))) : ℝ) = (l.sum : Int) ∧ l.sum.natAbs ≤ b := by
  obtain ⟨_, e2, e3⟩ := sum_natAbs h1
  refine ⟨?_, ?_, by omega⟩
  · have := whole_reduce l.length l le_rfl 0 (by rw [e2, abs_zero]; omega)
    rw [Int.zero_add] at this
    exact this
  · rw [hI.reduce]
    exact (map_list_sum (Int.castRingHom ℝ) l).symm

include hI in
theorem totalWeight_whole (hz : WholeGraph z kind V S K) (hk : kind.weights = true) (hS : S ≤ 2 ^ 51) {i : Nat} {t : Dbl}
    (ht : (z.convert dblOf).totalWeight i = .ok t) (hi : i < z.nbC) :
    ∃ t', (z.convert (fun k : Int => (k : ℝ))).totalWeight i = .ok t' ∧ Whole (4 * S) t t' := by
  obtain ⟨b, hb⟩ : ∃ b, z.nBnd[i]? = some b := ⟨_, List.getElem?_eq_getElem (by rw [hz.sizes.bnd]; exact hi)⟩
  rw [totalWeight_convert dblOf hz.crs hz.sizes hi hb] at ht
  rw [totalWeight_convert _ hz.crs hz.sizes hi hb]
  cases ht
  refine ⟨_, rfl, ?_⟩
  have hw : ∀ x ∈ faceWeights z.rowPtr z.values i, 1 ≤ x := by
    intro x hx
    refine hz.weights hk x ?_
    unfold faceWeights at hx
    split at hx
    · exact List.mem_of_mem_drop (List.mem_of_mem_take hx)
    · simp at hx
  obtain ⟨e1, e2, e3⟩ := reduce_whole hI hw (hz.sums hk i hi) (by omega)
  rw [e1, e2]
  have w1 : Whole S (dblOf (faceWeights z.rowPtr z.values i).sum) (((faceWeights z.rowPtr z.values i).sum : Int) : ℝ) := ⟨_, rfl, rfl, e3⟩
  suffices Whole (3 * S) (if b = 0 then Num.ofNat 0
      else Num.div (Num.mul (Num.ofNat b) (dblOf (faceWeights z.rowPtr z.values i).sum)) (Num.ofNat (faceWeights z.rowPtr z.values i).length) : Dbl)
      (if b = 0 then Num.ofNat 0
      else Num.div (Num.mul (Num.ofNat b) (((faceWeights z.rowPtr z.values i).sum : Int) : ℝ)) (Num.ofNat (faceWeights z.rowPtr z.values i).length) : ℝ) from
    (w1.add hI this (by omega) (by omega)).mono (by omega)
  by_cases h0 : b = 0
  · rw [if_pos h0, if_pos h0]
    exact (whole_nat hI 0).mono (by omega)
  · rw [if_neg h0, if_neg h0]
    obtain ⟨b3, hne, k, hk'⟩ := hz.mean hk i b hb (by omega)
    have hlen : 0 < (faceWeights z.rowPtr z.values i).length := List.length_pos_iff.2 hne
    obtain ⟨_, _, hpos⟩ := sum_natAbs hw
    have hlen2 : ((faceWeights z.rowPtr z.values i).length : Int) ≤ (faceWeights z.rowPtr z.values i).sum := by
      clear * - hw
      generalize faceWeights z.rowPtr z.values i = l at hw
      induction l with
      | nil => simp
      | cons a l ih =>
        have := ih (fun x hx => hw x (by simp [hx]))
        have := hw a (by simp)
        simp only [List.length_cons, List.sum_cons]
        push_cast
        omega
    have hsum := hz.sums hk i hi
    generalize (faceWeights z.rowPtr z.values i).length = m at *
    generalize (faceWeights z.rowPtr z.values i).sum = s at *
    have w2 := (whole_nat hI b).mul hI w1 (by omega) (by omega)
    have wm := whole_nat hI m
    have hb3 : b * S ≤ 3 * S := Nat.mul_le_mul_right _ b3
    have hm0 : (0 : ℝ) < m := by exact_mod_cast hlen
    obtain ⟨p, q, g1, g2, g3, g4, g5⟩ := w2.div hI wm (by omega) (by omega) (by rw [hI.ofNat]; exact_mod_cast hlen)
    have e4 : (p : ℝ) / q = k := by
      rw [← g2, hI.div, hI.mul, hI.ofNat, hI.ofNat, div_eq_iff hm0.ne', mul_comm (k : ℝ)]
      exact_mod_cast hk'
    have hq0 : (0 : ℝ) < q := by exact_mod_cast g3
    have e5 : p = k * q := by
      rw [div_eq_iff hq0.ne'] at e4
      exact_mod_cast e4
    refine ⟨k, ?_, by rw [g2, e4], ?_⟩
    · rw [g1]
      refine round_same g3 (by omega) ?_
      rw [e5]
      have : (0 : ℚ) < q := by exact_mod_cast g3
      push_cast
      field_simp
    · have : p.natAbs = k.natAbs * q := by rw [e5, Int.natAbs_mul]; rfl
      have h5 : k.natAbs ≤ k.natAbs * q := Nat.le_mul_of_pos_right _ g3
      omega

/-! ## Features -/

/-- the loop over the faces of a cell shared with a coarse cell -/
def shareLoop {W : Type} [Num W] (i : Nat) (cc : NSet) (l : List (Nat × W)) (a : W × NSet) : W × NSet :=
  l.foldl (fun (a : W × NSet) e => if e.1 ≠ i ∧ cc.has e.1 = true then (Num.add a.1 e.2, a.2.insert e.1) else a) a

theorem shareLoop_snd {W W' : Type} [Num W] [Num W'] {i : Nat} {cc : NSet} (φ : Int → W) (ψ : Int → W') :
    ∀ (row : List Nat) (l : List Int) (a : W × NSet) (a' : W' × NSet), a'.2 = a.2 →
      (shareLoop i cc (row.zip (l.map ψ)) a').2 = (shareLoop i cc (row.zip (l.map φ)) a).2 := by
  intro row
  induction row with
  | nil => intro l a a' h; exact h
  | cons y row ih =>
    intro l a a' h
    cases l with
    | nil => exact h
    | cons w l =>
      unfold shareLoop
      simp only [List.map_cons, List.zip_cons_cons, List.foldl_cons]
      refine ih l _ _ ?_
      split
      · show a'.2.insert y = a.2.insert y
        rw [h]
      · exact h

include hI in
theorem shareLoop_whole {i : Nat} {cc : NSet} : ∀ (row : List Nat) (l : List Int), (∀ x ∈ l, 1 ≤ x) → row.length = l.length →
    ∀ (b : Nat) (a : Dbl × NSet) (a' : ℝ × NSet), b + (l.map Int.natAbs).sum ≤ 2 ^ 53 → Whole b a.1 a'.1 →
      Whole (b + (l.map Int.natAbs).sum) (shareLoop i cc (row.zip (l.map dblOf)) a).1
        (shareLoop i cc (row.zip (l.map (fun k : Int => (k : ℝ)))) a').1 ∧
      a'.1 ≤ (shareLoop i cc (row.zip (l.map (fun k : Int => (k : ℝ)))) a').1 ∧
      ((∃ y ∈ row, y ≠ i ∧ y ∈ cc) → a'.1 + 1 ≤ (shareLoop i cc (row.zip (l.map (fun k : Int => (k : ℝ)))) a').1) := by
  intro row
  induction row with
  | nil =>
    intro l _ hl b a a' _ h
    obtain rfl : l = [] := by simpa using hl.symm
    exact ⟨by simpa [shareLoop] using h, by simp [shareLoop], by simp⟩
  | cons y row ih =>
    intro l hpos hl b a a' hb h
    cases l with
    | nil => simp at hl
    | cons w l =>
      have hw := hpos w (by simp)
      have hwr : (1 : ℝ) ≤ (w : ℝ) := by exact_mod_cast hw
      simp only [List.map_cons, List.sum_cons] at hb
      have ww : Whole w.natAbs (dblOf w) (w : ℝ) := ⟨w, rfl, rfl, le_rfl⟩
      unfold shareLoop
      simp only [List.map_cons, List.zip_cons_cons, List.foldl_cons, List.sum_cons]
      by_cases hc : y ≠ i ∧ cc.has y = true
      · rw [if_pos hc, if_pos hc]
        obtain ⟨g1, g2, g3⟩ := ih l (fun x hx => hpos x (by simp [hx])) (by simpa using hl) (b + w.natAbs)
          (Num.add a.1 (dblOf w), a.2.insert y) (Num.add a'.1 (w : ℝ), a'.2.insert y) (by omega) (h.add hI ww (by omega) (by omega))
        refine ⟨by rw [← Nat.add_assoc]; exact g1, ?_, fun _ => ?_⟩
        · refine le_trans ?_ g2
          show a'.1 ≤ Num.add a'.1 (w : ℝ)
          rw [hI.add]; linarith
        · refine le_trans ?_ g2
          show a'.1 + 1 ≤ Num.add a'.1 (w : ℝ)
          rw [hI.add]; linarith
      · rw [if_neg hc, if_neg hc]
        obtain ⟨g1, g2, g3⟩ := ih l (fun x hx => hpos x (by simp [hx])) (by simpa using hl) b a a' (by omega) h
        refine ⟨g1.mono (by omega), g2, ?_⟩
        rintro ⟨v, hv, h1, h2⟩
        rcases List.mem_cons.1 hv with rfl | hv
        · exact absurd ⟨h1, NSet.has_iff.2 h2⟩ hc
        · exact g3 ⟨v, hv, h1, h2⟩

/-- diameter and shortest edge: not yet searched for, or whole numbers -/
def GeomWhole (D : Nat) (f : Feats Dbl) (f' : Feats ℝ) : Prop :=
  (f.sqDiam = Num.lmin ∧ f'.sqDiam = Num.lmin ∧ f.sqMin = Num.lmax ∧ f'.sqMin = Num.lmax) ∨
    ((Whole D f.sqDiam f'.sqDiam ∧ 1 ≤ f'.sqDiam) ∧ Whole D f.sqMin f'.sqMin ∧ 1 ≤ f'.sqMin)

/-- features of a coarse cell of whole numbers -/
structure FeatsWhole (kind : ARKind) (N V S K : Nat) (xs : List Nat) (f : Feats Dbl) (f' : Feats ℝ) : Prop where
  measure : Whole (xs.length * V) f.measure f'.measure ∧ 1 ≤ f'.measure
  ext : kind.weights = true → Whole (xs.length * (6 * S)) f.ext f'.ext
  int : kind.weights = true → Whole (xs.length * S) f.int f'.int ∧ 0 ≤ f'.int
  geom : kind.geom = true → GeomWhole (3 * (N * K * (N * K))) f f'

theorem rd_convert {α β : Type} {v : List α} {i : Nat} {φ : α → β} {x : β} (h : rd (v.map φ) i = .ok x) :
    ∃ k, v[i]? = some k ∧ x = φ k := by
  rw [rd_ok, List.getElem?_map, Option.map_eq_some_iff] at h
  obtain ⟨k, h1, h2⟩ := h
  exact ⟨k, h1, h2.symm⟩

theorem rd_convert' {α β : Type} {v : List α} {i : Nat} (φ : α → β) {k : α} (h : v[i]? = some k) : rd (v.map φ) i = .ok (φ k) := by
  rw [rd_ok, List.getElem?_map, h]; rfl

variable {N : Nat}

include hI in
theorem init_whole (hz : WholeGraph z kind V S K) (hS : kind.weights = true → S ≤ 2 ^ 51) {i : Nat} {f : Feats Dbl}
    (hf : Feats.init (z.convert dblOf) i = .ok f) :
    ∃ f', Feats.init (z.convert (fun k : Int => (k : ℝ))) i = .ok f' ∧ FeatsWhole kind N V S K [i] f f' := by
  unfold Feats.init at hf ⊢
  obtain ⟨v, hv, hf⟩ := bind_ok_iff.1 hf
  obtain ⟨t, ht, hf⟩ := bind_ok_iff.1 hf
  obtain ⟨n, hn, hf⟩ := bind_ok_iff.1 hf
  obtain ⟨c, hc, hf⟩ := bind_ok_iff.1 hf
  cases hf
  obtain ⟨k, hk, rfl⟩ := rd_convert hv
  obtain ⟨d, hd, rfl⟩ := rd_convert hc
  have hi : i < z.nbC := by rw [← hz.sizes.volumes]; exact (List.getElem?_eq_some_iff.1 hk).1
  obtain ⟨v1, v2⟩ := hz.volumes k (List.mem_of_getElem? hk)
  have hfaces : (z.convert (fun k : Int => (k : ℝ))).totalFaces i = .ok n := hn
  obtain ⟨t', ht', hw⟩ : ∃ t', (z.convert (fun k : Int => (k : ℝ))).totalWeight i = .ok t' ∧ (kind.weights = true → Whole (4 * S) t t') := by
    by_cases h : kind.weights = true
    · obtain ⟨t', h1, h2⟩ := totalWeight_whole hI hz h (hS h) ht hi
      exact ⟨t', h1, fun _ => h2⟩
    · obtain ⟨b, hb⟩ : ∃ b, z.nBnd[i]? = some b := ⟨_, List.getElem?_eq_getElem (by rw [hz.sizes.bnd]; exact hi)⟩
      exact ⟨_, totalWeight_convert _ hz.crs hz.sizes hi hb, fun h' => absurd h' h⟩
  rw [show (z.convert (fun k : Int => (k : ℝ))).volumes = z.volumes.map (fun k : Int => (k : ℝ)) from rfl, rd_convert' _ hk, ok_bind, ht',
    ok_bind, hfaces, ok_bind, show (z.convert (fun k : Int => (k : ℝ))).centers = z.centers.map (fun c => c.map (fun k : Int => (k : ℝ))) from rfl,
    rd_convert' _ hd]
  refine ⟨_, rfl, ⟨⟨k, rfl, rfl, ?_⟩, ?_⟩, ?_, ?_, ?_⟩
  · simp only [List.length_singleton]; omega
  · show (1 : ℝ) ≤ ((k : Int) : ℝ)
    exact_mod_cast v1
  · intro h
    exact (hw h).mono (by simp only [List.length_singleton]; omega)
  · intro _
    refine ⟨(whole_nat hI 0).mono (by omega), ?_⟩
    show (0 : ℝ) ≤ Num.ofNat 0
    rw [hI.ofNat]; simp
  · intro _
    exact Or.inl ⟨rfl, rfl, rfl, rfl⟩

include hI in
theorem basic_whole (hz : WholeGraph z kind V S K) (hV : N * V ≤ 2 ^ 51) (hS : kind.weights = true → 6 * N * S ≤ 2 ^ 53 ∧ N * S ≤ 2 ^ 51) {c : Nat} {xs : List Nat}
    {f : Feats Dbl} {f' : Feats ℝ} (hf : FeatsWhole kind N V S K xs f f') (hlen : xs.length < N) (hc : c ∉ xs)
    (hadj : ∃ y ∈ xs, Adj z.rowPtr z.colInd y c) {n : Nat} {f1 : Feats Dbl}
    (hb : updateBasic kind.weights false (z.convert dblOf) c f (NSet.ofList xs) = .ok (n, f1)) :
    ∃ f1', updateBasic kind.weights false (z.convert (fun k : Int => (k : ℝ))) c f' (NSet.ofList xs) = .ok (n, f1') ∧
      (Whole ((xs.length + 1) * V) f1.measure f1'.measure ∧ 1 ≤ f1'.measure) ∧
      (kind.weights = true → Whole ((xs.length + 1) * (6 * S)) f1.ext f1'.ext ∧ Whole ((xs.length + 1) * S) f1.int f1'.int ∧ 1 ≤ f1'.int) := by
  unfold updateBasic at hb ⊢
  obtain ⟨v, hv, hb⟩ := bind_ok_iff.1 hb
  obtain ⟨q, hq, hb⟩ := bind_ok_iff.1 hb
  obtain ⟨d, hd, hb⟩ := bind_ok_iff.1 hb
  rw [if_neg (by simp)] at hb
  cases hb
  obtain ⟨k, hk, rfl⟩ := rd_convert hv
  have hi : c < z.nbC := by rw [← hz.sizes.volumes]; exact (List.getElem?_eq_some_iff.1 hk).1
  obtain ⟨v1, v2⟩ := hz.volumes k (List.mem_of_getElem? hk)
  have hNV : (xs.length + 1) * V ≤ N * V := Nat.mul_le_mul_right _ hlen
  have hle : xs.length * V ≤ (xs.length + 1) * V := Nat.mul_le_mul_right _ (by omega)
  have hLV : (xs.length + 1) * V = xs.length * V + V := by ring
  have wk : Whole V (dblOf k) (k : ℝ) := ⟨k, rfl, rfl, by omega⟩
  have wm := hf.measure.1.add hI wk (by omega) (by omega)
  have hkr : (1 : ℝ) ≤ (k : ℝ) := by exact_mod_cast v1
  have hmeas : Whole ((xs.length + 1) * V) (Num.add f.measure (dblOf k)) (Num.add f'.measure (k : ℝ)) ∧ 1 ≤ Num.add f'.measure (k : ℝ) := by
    refine ⟨wm.mono (by omega), ?_⟩
    rw [hI.add]
    have := hf.measure.2
    linarith
  unfold sharedFaces at hq ⊢
  have hrow : (z.convert dblOf).neighs c = .ok (rowL z.rowPtr z.colInd c) := neighs_eq (g := z.convert dblOf) hz.crs hi
  have hrow' : (z.convert (fun k : Int => (k : ℝ))).neighs c = .ok (rowL z.rowPtr z.colInd c) :=
    neighs_eq (g := z.convert (fun k : Int => (k : ℝ))) hz.crs hi
  rw [hrow, ok_bind, weights_convert dblOf hz.crs hz.sizes hi, ok_bind] at hq
  rw [hrow', ok_bind, weights_convert _ hz.crs hz.sizes hi, ok_bind]
  change Except.ok (shareLoop c (NSet.ofList xs) _ _) = _ at hq
  cases hq
  rw [show rd (z.convert (fun k : Int => (k : ℝ))).volumes c = .ok (k : ℝ) from rd_convert' _ hk, ok_bind]
  have hsnd := shareLoop_snd (i := c) (cc := NSet.ofList xs) dblOf (fun k : Int => (k : ℝ)) (rowL z.rowPtr z.colInd c)
    (faceWeights z.rowPtr z.values c) (Num.ofNat 0, NSet.empty) (Num.ofNat 0, NSet.empty) rfl
  change ∃ f1', ((Except.ok (shareLoop c (NSet.ofList xs) ((rowL z.rowPtr z.colInd c).zip
    ((faceWeights z.rowPtr z.values c).map (fun k : Int => (k : ℝ)))) (Num.ofNat 0, NSet.empty)) : M (ℝ × NSet)) >>= _) = _ ∧ _
  rw [ok_bind]
  unfold withWeights at hd ⊢
  cases hw : kind.weights with
  | false =>
    rw [hw, if_neg (by simp)] at hd
    rw [if_neg (by simp)]
    cases hd
    exact ⟨_, by rw [hsnd]; rfl, hmeas, by simp⟩
  | true =>
    obtain ⟨hS1, hS2⟩ := hS hw
    rw [hw, if_pos rfl] at hd
    rw [if_pos rfl]
    unfold updateWeights at hd ⊢
    obtain ⟨p, hp, hd⟩ := bind_ok_iff.1 hd
    obtain ⟨t, ht, hp⟩ := bind_ok_iff.1 hp
    cases hp
    cases hd
    have hSle : S ≤ 2 ^ 51 := (Nat.le_mul_of_pos_left S (by omega : 0 < N)).trans hS2
    obtain ⟨t', ht', wt⟩ := totalWeight_whole hI hz hw hSle ht hi
    rw [ht', ok_bind]
    have hpos : ∀ x ∈ faceWeights z.rowPtr z.values c, 1 ≤ x := by
      intro x hx
      refine hz.weights hw x ?_
      unfold faceWeights at hx
      split at hx
      · exact List.mem_of_mem_drop (List.mem_of_mem_take hx)
      · simp at hx
    obtain ⟨_, hl2⟩ := weights_eq (g := z) hz.crs hz.sizes.values hi
    rw [faceWeights_eq hz.crs hz.sizes.values hi] at hl2
    obtain ⟨e1, _, _⟩ := sum_natAbs hpos
    have hsum := hz.sums hw c hi
    obtain ⟨g1, _, g3⟩ := shareLoop_whole hI (i := c) (cc := NSet.ofList xs) (rowL z.rowPtr z.colInd c) _ hpos hl2.symm 0
      (Num.ofNat 0, NSet.empty) (Num.ofNat 0, NSet.empty) (by omega) (whole_nat hI 0)
    have g1' := g1.mono (c := S) (by omega)
    have g3' := g3 (by
      obtain ⟨y, hy, ha⟩ := hadj
      refine ⟨y, (hz.crs.mem_rowL hi).2 (hz.sym _ _ ha), fun h => hc (h ▸ hy), NSet.mem_ofList.2 hy⟩)
    have hext := hf.ext hw
    obtain ⟨hint, hint0⟩ := hf.int hw
    have hNS : (xs.length + 1) * S ≤ N * S := Nat.mul_le_mul_right _ hlen
    have hNS6 : (xs.length + 1) * (6 * S) ≤ 6 * N * S := by
      calc (xs.length + 1) * (6 * S) ≤ N * (6 * S) := Nat.mul_le_mul_right _ hlen
        _ = 6 * N * S := by ring
    have a1 : (xs.length + 1) * S = xs.length * S + S := by ring
    have a2 : (xs.length + 1) * (6 * S) = xs.length * (6 * S) + 6 * S := by ring
    refine ⟨_, by rw [hsnd]; rfl, hmeas, fun _ => ⟨?_, ?_, ?_⟩⟩
    · have w1 := hext.add hI wt (by omega) (by omega)
      have w2 := (whole_nat hI 2).mul hI g1' (by omega) (by omega)
      exact (w1.sub hI w2 (by omega) (by omega)).mono (by omega)
    · exact (hint.add hI g1' (by omega) (by omega)).mono (by omega)
    · show 1 ≤ Num.add f'.int _
      rw [hI.add]
      refine le_trans ?_ (add_le_add hint0 g3')
      show (1 : ℝ) ≤ 0 + (Num.ofNat 0 + 1)
      rw [hI.ofNat]; simp

/-! ## Distances inside a coarse cell -/

theorem adj_lt (h : ValidCRS z.nbC z.rowPtr z.colInd) {y c : Nat} (ha : Adj z.rowPtr z.colInd y c) : y < z.nbC := by
  obtain ⟨b, e, k, h1, h2, _⟩ := ha
  have := (List.getElem?_eq_some_iff.1 h2).1
  rw [h.rows] at this
  omega

/-- the cells of a coarse cell are not further apart than it has cells -/
theorem grows_near (hz : WholeGraph z kind V S K) (hk : kind.geom = true) {xs : List Nat} (h : Grows z.rowPtr z.colInd xs) :
    ∀ i ∈ xs, ∀ j ∈ xs, ∀ ci cj, z.centers[i]? = some ci → z.centers[j]? = some cj →
      ∀ (k : Nat) x y, ci[k]? = some x → cj[k]? = some y → (x - y).natAbs ≤ xs.length * K := by
  induction h with
  | seed s =>
    intro i hi j hj ci cj h1 h2 k x y h3 h4
    simp only [List.mem_singleton] at hi hj
    subst hi hj
    rw [h1] at h2
    cases h2
    rw [h3] at h4
    cases h4
    simp
  | @next xs y0 c hg hc hy ha ih =>
    obtain ⟨D, hD⟩ := hz.sizes.coords
    have hy0 := adj_lt hz.crs ha
    obtain ⟨c0, h0⟩ : ∃ c0, z.centers[y0]? = some c0 := ⟨_, List.getElem?_eq_getElem (by rw [hz.sizes.centers]; exact hy0)⟩
    have hlen : (xs ++ [c]).length * K = xs.length * K + K := by rw [List.length_append, List.length_singleton]; ring
    have mid : ∀ {i : Nat} {ci : List Int} {k : Nat} {x : Int}, z.centers[i]? = some ci → ci[k]? = some x → ∃ t, c0[k]? = some t := by
      intro i ci k x h1 h2
      have := (List.getElem?_eq_some_iff.1 h2).1
      rw [hD _ (List.mem_of_getElem? h1), ← hD _ (List.mem_of_getElem? h0)] at this
      exact ⟨_, List.getElem?_eq_getElem this⟩
    intro i hi j hj ci cj h1 h2 k x y h3 h4
    rw [hlen]
    rcases List.mem_append.1 hi with hi' | hi' <;> rcases List.mem_append.1 hj with hj' | hj'
    · have := ih i hi' j hj' ci cj h1 h2 k x y h3 h4
      omega
    · simp only [List.mem_singleton] at hj'
      subst hj'
      obtain ⟨t, ht⟩ := mid h1 h3
      have e1 := ih i hi' y0 hy ci c0 h1 h0 k x t h3 ht
      have e2 := hz.near hk y0 j c0 cj ha h0 h2 k t y ht h4
      omega
    · simp only [List.mem_singleton] at hi'
      subst hi'
      obtain ⟨t, ht⟩ := mid h1 h3
      have e1 := ih y0 hy j hj' c0 cj h0 h2 k t y ht h4
      have e2 := hz.near hk y0 i c0 ci ha h0 h1 k t x ht h3
      omega
    · simp only [List.mem_singleton] at hi' hj'
      subst hi' hj'
      rw [h1] at h2
      cases h2
      rw [h3] at h4
      cases h4
      simp

include hI in
theorem geom_whole (hz : WholeGraph z kind V S K) (hk : kind.geom = true) (hD : 3 * (N * K * (N * K)) ≤ 2 ^ 51) {hs : Hash} {c : Nat}
    {xs : List Nat} (hg : Grows z.rowPtr z.colInd (xs ++ [c])) (hxs : xs ≠ []) (hc : c ∉ xs) (hlen : xs.length < N) {f : Feats Dbl}
    {f' : Feats ℝ} (hf : GeomWhole (3 * (N * K * (N * K))) f f') {y : Dbl × Dbl}
    (hb : updateGeom (z.convert dblOf) hs c f (NSet.ofList xs) = .ok y) :
    ∃ y', updateGeom (z.convert (fun k : Int => (k : ℝ))) hs c f' (NSet.ofList xs) = .ok y' ∧
      (Whole (3 * (N * K * (N * K))) y.1 y'.1 ∧ 1 ≤ y'.1) ∧ Whole (3 * (N * K * (N * K))) y.2 y'.2 ∧ 1 ≤ y'.2 := by
  unfold updateGeom at hb ⊢
  obtain ⟨cc, hcc, hb⟩ := bind_ok_iff.1 hb
  obtain ⟨c0, h0, rfl⟩ := rd_convert hcc
  rw [show rd (z.convert (fun k : Int => (k : ℝ))).centers c = .ok (c0.map (fun k : Int => (k : ℝ))) from rd_convert' _ h0, ok_bind]
  have one : ∀ x ∈ hs.ord 4 (NSet.ofList xs).elems, ∀ cx, z.centers[x]? = some cx → cx.length = c0.length ∧
      Whole (3 * (N * K * (N * K))) (dist2 (c0.map dblOf) (cx.map dblOf))
        (dist2 (c0.map (fun k : Int => (k : ℝ))) (cx.map (fun k : Int => (k : ℝ)))) ∧
      1 ≤ dist2 (c0.map (fun k : Int => (k : ℝ))) (cx.map (fun k : Int => (k : ℝ))) := by
    intro x hx cx hcx
    have hx' : x ∈ xs := NSet.mem_ofList.1 ((hs.perm 4 _).mem_iff.1 hx)
    obtain ⟨D, hD'⟩ := hz.sizes.coords
    have hl : c0.length = cx.length := by rw [hD' _ (List.mem_of_getElem? h0), hD' _ (List.mem_of_getElem? hcx)]
    obtain ⟨k1, k2⟩ := hz.coords hk c0 (List.mem_of_getElem? h0)
    obtain ⟨_, k3⟩ := hz.coords hk cx (List.mem_of_getElem? hcx)
    refine ⟨hl.symm, dist_whole hI hD hl k1 k2 k3 ?_ ?_⟩
    · intro k t u h1 h2
      have := grows_near hz hk hg c (by simp) x (by simp [hx']) c0 cx h0 hcx k t u h1 h2
      refine this.trans (Nat.mul_le_mul_right _ ?_)
      rw [List.length_append, List.length_singleton]
      exact hlen
    · intro he
      obtain ⟨l1, e1⟩ := List.getElem?_eq_some_iff.1 h0
      obtain ⟨l2, e2⟩ := List.getElem?_eq_some_iff.1 hcx
      have := (hz.distinct hk).getElem_inj_iff.1 ((e1.trans he).trans e2.symm)
      exact hc (this ▸ hx')
  have hne : hs.ord 4 (NSet.ofList xs).elems ≠ [] := by
    obtain ⟨t, ht⟩ := List.exists_mem_of_ne_nil xs hxs
    exact List.ne_nil_of_mem ((hs.perm 4 _).mem_iff.2 (NSet.mem_ofList.2 ht))
  generalize hs.ord 4 (NSet.ofList xs).elems = l at *
  generalize 3 * (N * K * (N * K)) = D at *
  -- from whole numbers
  have go : ∀ l : List Nat, (∀ x ∈ l, ∀ cx, z.centers[x]? = some cx → cx.length = c0.length ∧
      Whole D (dist2 (c0.map dblOf) (cx.map dblOf)) (dist2 (c0.map (fun k : Int => (k : ℝ))) (cx.map (fun k : Int => (k : ℝ)))) ∧
      1 ≤ dist2 (c0.map (fun k : Int => (k : ℝ))) (cx.map (fun k : Int => (k : ℝ)))) → ∀ (p y : Dbl × Dbl) (p' : ℝ × ℝ),
      (Whole D p.1 p'.1 ∧ 1 ≤ p'.1) → (Whole D p.2 p'.2 ∧ 1 ≤ p'.2) →
      l.foldlM (fun (a : Dbl × Dbl) x => do
        let cx ← rd (z.convert dblOf).centers x
        let dist ← sqDist (c0.map dblOf) cx
        pure (if Num.lt a.1 dist then dist else a.1, if Num.lt dist a.2 then dist else a.2)) p = .ok y →
      ∃ y', l.foldlM (fun (a : ℝ × ℝ) x => do
        let cx ← rd (z.convert (fun k : Int => (k : ℝ))).centers x
        let dist ← sqDist (c0.map (fun k : Int => (k : ℝ))) cx
        pure (if Num.lt a.1 dist then dist else a.1, if Num.lt dist a.2 then dist else a.2)) p' = (.ok y' : M (ℝ × ℝ)) ∧
        (Whole D y.1 y'.1 ∧ 1 ≤ y'.1) ∧ Whole D y.2 y'.2 ∧ 1 ≤ y'.2 := by
    intro l
    induction l with
    | nil => intro _ p y p' h1 h2 hy; cases hy; exact ⟨p', rfl, h1, h2⟩
    | cons x l ih =>
      intro hl p y p' h1 h2 hy
      rw [List.foldlM_cons] at hy ⊢
      obtain ⟨p1, hp1, hy⟩ := bind_ok_iff.1 hy
      obtain ⟨cx, hcx, hp1⟩ := bind_ok_iff.1 hp1
      obtain ⟨cz, hcz, rfl⟩ := rd_convert hcx
      obtain ⟨hlen', w1, w2⟩ := hl x (by simp) cz hcz
      rw [sqDist_eq (by simp [hlen']), ok_bind] at hp1
      cases hp1
      rw [show rd (z.convert (fun k : Int => (k : ℝ))).centers x = .ok (cz.map (fun k : Int => (k : ℝ))) from rd_convert' _ hcz, ok_bind,
        sqDist_eq (by simp [hlen']), ok_bind, pure_bind]
      refine ih (fun t ht => hl t (by simp [ht])) _ y _ ?_ ?_ hy
      · rw [h1.1.lt hI w1 (by omega) (by omega)]
        dsimp only
        split
        · exact ⟨w1, w2⟩
        · exact h1
      · rw [w1.lt hI h2.1 (by omega) (by omega)]
        dsimp only
        split
        · exact ⟨w1, w2⟩
        · exact h2
  rcases hf with ⟨e1, e2, e3, e4⟩ | ⟨h1, h2⟩
  · rw [e1, e3] at hb
    rw [e2, e4]
    cases l with
    | nil => exact absurd rfl hne
    | cons x l =>
      rw [List.foldlM_cons] at hb ⊢
      obtain ⟨p1, hp1, hb⟩ := bind_ok_iff.1 hb
      obtain ⟨cx, hcx, hp1⟩ := bind_ok_iff.1 hp1
      obtain ⟨cz, hcz, rfl⟩ := rd_convert hcx
      obtain ⟨hlen', w1, w2⟩ := one x (by simp) cz hcz
      obtain ⟨s1, s2, s3, s4⟩ := w1.start hI hD w2
      rw [sqDist_eq (by simp [hlen']), ok_bind] at hp1
      simp only [s1, s2, if_true] at hp1
      cases hp1
      rw [show rd (z.convert (fun k : Int => (k : ℝ))).centers x = .ok (cz.map (fun k : Int => (k : ℝ))) from rd_convert' _ hcz, ok_bind,
        sqDist_eq (by simp [hlen']), ok_bind]
      simp only [s3, s4, if_true]
      rw [pure_bind]
      exact go l (fun t ht => one t (by simp [ht])) _ y _ ⟨w1, w2⟩ ⟨w1, w2⟩ hb
  · exact go l one _ y _ h1 h2 hb

/-! ## Ratios -/

/-- bounds of numerator and denominator -/
def ratioBounds (dim : Nat) (kind : ARKind) (N V S K : Nat) : Nat × Nat :=
  match kind with
  | .diamOverRadius => if dim = 2 then (3 * (N * K * (N * K)), N * V) else
    (3 * (N * K * (N * K)) * (3 * (N * K * (N * K))) * (3 * (N * K * (N * K))), N * V * (N * V))
  | .diamOverMinEdge => (3 * (N * K * (N * K)), 3 * (N * K * (N * K)))
  | .diameter => (3 * (N * K * (N * K)), 1)
  | .overMeasure => (1, N * V)
  | .overInternal => (1, N * S)
  | .perimOverRadius => if dim = 2 then (6 * N * S * (6 * N * S), N * V) else
    (6 * N * S * (6 * N * S) * (6 * N * S), N * V * (N * V))
  | .external => (6 * N * S, 1)
  | _ => (6 * N * S, N * V)

theorem NearFrac.mono {P Q P' Q' : Nat} {x : Dbl} {x' : ℝ} (h : NearFrac P Q x x') (h1 : P ≤ P') (h2 : Q ≤ Q') : NearFrac P' Q' x x' := by
  obtain ⟨p, q, a1, a2, a3, a4, a5⟩ := h
  exact ⟨p, q, a1, a2, a3, a4.trans h1, a5.trans h2⟩

/-- what the bounds give -/
structure Bounds (dim : Nat) (kind : ARKind) (N V S K : Nat) : Prop where
  bary : kind.bary = false
  unknown : kind ≠ .unknown
  prod : (ratioBounds dim kind N V S K).1 * (ratioBounds dim kind N V S K).2 ≤ 2 ^ 51
  den : 1 ≤ (ratioBounds dim kind N V S K).2 ∧ (ratioBounds dim kind N V S K).2 ≤ 2 ^ 51
  num : (ratioBounds dim kind N V S K).1 ≤ 2 ^ 51
  volume : 1 ≤ N * V ∧ N * V ≤ 2 ^ 51
  weight : kind.weights = true → 1 ≤ 6 * N * S ∧ 6 * N * S ≤ 2 ^ 51
  dist : kind.geom = true → 1 ≤ 3 * (N * K * (N * K)) ∧ 3 * (N * K * (N * K)) ≤ 2 ^ 51

theorem mul_le_left {a b c : Nat} (h : a * b ≤ c) (hb : 1 ≤ b) : a ≤ c := (Nat.le_mul_of_pos_right a hb).trans h

theorem mul_le_right {a b c : Nat} (h : a * b ≤ c) (ha : 1 ≤ a) : b ≤ c := (Nat.le_mul_of_pos_left b ha).trans h

theorem ratioFits_bounds {dim : Int} (h : RatioFits dim kind N V S K) (hN : 1 ≤ N) : Bounds dim.toNat kind N V S K := by
  obtain ⟨⟨v0, s0, k0, hV⟩, h⟩ := h
  have q0 : 1 ≤ N * V := Nat.mul_pos hN v0
  have x0 : 1 ≤ 6 * N * S := Nat.mul_pos (by omega) s0
  have d0 : 1 ≤ 3 * (N * K * (N * K)) := by
    have : 0 < N * K := Nat.mul_pos hN k0
    have : 0 < N * K * (N * K) := Nat.mul_pos this this
    omega
  have hd2 : (dim.toNat = 2) = (dim = 2) := by
    apply propext; omega
  have ns : N * S ≤ 6 * N * S := Nat.mul_le_mul_right _ (by omega)
  have n0 : 1 ≤ N * S := Nat.mul_pos hN s0
  have mk : ∀ P Q, ratioBounds dim.toNat kind N V S K = (P, Q) → 1 ≤ P → 1 ≤ Q → P * Q ≤ 2 ^ 51 →
      kind.bary = false → kind ≠ .unknown →
      (kind.weights = true → 6 * N * S ≤ 2 ^ 51) → (kind.geom = true → 3 * (N * K * (N * K)) ≤ 2 ^ 51) →
      Bounds dim.toNat kind N V S K := by
    intro P Q e p1 q1 pq b1 b2 b3 b4
    refine ⟨b1, b2, ?_, ?_, ?_, ⟨q0, hV⟩, fun hk => ⟨x0, b3 hk⟩, fun hk => ⟨d0, b4 hk⟩⟩ <;> rw [e]
    · exact pq
    · exact ⟨q1, mul_le_right pq p1⟩
    · exact mul_le_left pq q1
  have sq : 3 * (N * K) ^ 2 = 3 * (N * K * (N * K)) := by ring
  cases kind with
  | diamOverRadius =>
    simp only [sq] at h
    generalize hDe : 3 * (N * K * (N * K)) = D at *
    generalize hQe : N * V = Q at *
    by_cases hd : dim = 2
    · rw [if_pos hd] at h
      exact mk D Q (by simp only [ratioBounds, hd2, if_pos hd, hDe, hQe]) d0 q0 h rfl (by decide) (fun h => by cases h) (fun _ => mul_le_left h q0)
    · rw [if_neg hd] at h
      have dd : 1 ≤ D * D := Nat.mul_pos d0 d0
      have h' : D * D * D * (Q * Q) ≤ 2 ^ 51 := by
        calc D * D * D * (Q * Q) = D ^ 3 * Q ^ 2 := by ring
          _ ≤ _ := h
      refine mk (D * D * D) (Q * Q) (by simp only [ratioBounds, hd2, if_neg hd, hDe, hQe]) (Nat.mul_pos dd d0) (Nat.mul_pos q0 q0)
        h' rfl (by decide) (fun h => by cases h) (fun _ => ?_)
      exact mul_le_right (mul_le_left h' (Nat.mul_pos q0 q0)) dd
  | diamOverMinEdge =>
    simp only [sq] at h
    generalize hDe : 3 * (N * K * (N * K)) = D at *
    have h' : D * D ≤ 2 ^ 51 := by rw [← Nat.pow_two]; exact h
    exact mk D D (by simp only [ratioBounds, hDe]) d0 d0 h' rfl (by decide) (fun h => by cases h) (fun _ => mul_le_left h' d0)
  | diameter =>
    simp only [sq] at h
    generalize hDe : 3 * (N * K * (N * K)) = D at *
    exact mk D 1 (by simp only [ratioBounds, hDe]) d0 le_rfl (by omega) rfl (by decide) (fun h => by cases h) (fun _ => h)
  | overMeasure => exact mk 1 (N * V) rfl le_rfl q0 (by omega) rfl (by decide) (fun h => by cases h) (fun h => by cases h)
  | overInternal =>
    simp only at h
    exact mk 1 (N * S) rfl le_rfl n0 (by omega) rfl (by decide) (fun _ => h) (fun h => by cases h)
  | perimOverRadius =>
    simp only at h
    generalize hXe : 6 * N * S = X at *
    generalize hQe : N * V = Q at *
    by_cases hd : dim = 2
    · rw [if_pos hd] at h
      have h' : X * X * Q ≤ 2 ^ 51 := by rw [← Nat.pow_two]; exact h
      exact mk (X * X) Q (by simp only [ratioBounds, hd2, if_pos hd, hXe, hQe]) (Nat.mul_pos x0 x0) q0 h' rfl (by decide)
        (fun _ => mul_le_left (mul_le_left h' q0) x0) (fun h => by cases h)
    · rw [if_neg hd] at h
      have h' : X * X * X * (Q * Q) ≤ 2 ^ 51 := by
        calc X * X * X * (Q * Q) = X ^ 3 * Q ^ 2 := by ring
          _ ≤ _ := h
      refine mk (X * X * X) (Q * Q) (by simp only [ratioBounds, hd2, if_neg hd, hXe, hQe]) (Nat.mul_pos (Nat.mul_pos x0 x0) x0) (Nat.mul_pos q0 q0)
        h' rfl (by decide) (fun _ => ?_) (fun h => by cases h)
      exact mul_le_right (mul_le_left h' (Nat.mul_pos q0 q0)) (Nat.mul_pos x0 x0)
  | external =>
    simp only at h
    exact mk (6 * N * S) 1 rfl x0 le_rfl (by omega) rfl (by decide) (fun _ => h) (fun h => by cases h)
  | algebraic =>
    simp only at h
    exact mk (6 * N * S) (N * V) rfl x0 q0 h rfl (by decide) (fun _ => mul_le_left h q0) (fun h => by cases h)
  | maxBaryOverRadius => exact h.elim
  | maxOverMinBary => exact h.elim
  | unknown => exact h.elim

include hI in
theorem mul_one_le {x y : ℝ} (h1 : 1 ≤ x) (h2 : 1 ≤ y) : 1 ≤ Num.mul x y := by
  rw [hI.mul]; nlinarith

include hI in
theorem value_whole {dim : Nat} (hb : Bounds dim kind N V S K) (cc : NSet) {f : Feats Dbl} {f' : Feats ℝ}
    (h1 : Whole (N * V) f.measure f'.measure ∧ 1 ≤ f'.measure)
    (h2 : kind.weights = true → Whole (6 * N * S) f.ext f'.ext ∧ Whole (N * S) f.int f'.int ∧ 1 ≤ f'.int)
    (h3 : kind.geom = true → Whole (3 * (N * K * (N * K))) f.sqDiam f'.sqDiam ∧ Whole (3 * (N * K * (N * K))) f.sqMin f'.sqMin ∧ 1 ≤ f'.sqMin) :
    NearFrac (ratioBounds dim kind N V S K).1 (ratioBounds dim kind N V S K).2 (arValue dim kind cc f) (arValue dim kind cc f') := by
  obtain ⟨w1, p1⟩ := h1
  have b1 := hb.num
  have b2 := hb.den
  have bv := hb.volume
  have bw := hb.weight
  have bd := hb.dist
  have ns : N * S ≤ 6 * N * S := Nat.mul_le_mul_right _ (by omega)
  have nb := hb.bary
  have nu := hb.unknown
  cases kind with
  | diamOverRadius =>
    obtain ⟨g1, _, _⟩ := h3 rfl
    obtain ⟨d1, d2⟩ := bd rfl
    simp only [ratioBounds, arValue, xOverRadius] at b1 b2 ⊢
    generalize 3 * (N * K * (N * K)) = D at *
    generalize N * V = Q at *
    by_cases hd : dim = 2
    · simp only [if_pos hd] at b1 b2 ⊢
      exact g1.div hI w1 (by omega) (by omega) p1
    · simp only [if_neg hd] at b1 b2 ⊢
      have dd : D * D ≤ 2 ^ 51 := mul_le_left b1 d1
      exact ((g1.mul hI g1 (by omega) (by omega)).mul hI g1 (by omega) (by omega)).div hI (w1.mul hI w1 (by omega) (by omega))
        (by omega) (by omega) (mul_one_le hI p1 p1)
  | diamOverMinEdge =>
    obtain ⟨g1, g2, g3⟩ := h3 rfl
    obtain ⟨d1, d2⟩ := bd rfl
    simp only [ratioBounds, arValue] at b1 b2 ⊢
    split
    · exact g1.near.mono le_rfl d1
    · exact g1.div hI g2 (by omega) (by omega) g3
  | diameter => exact (h3 rfl).1.near
  | overMeasure => exact (whole_nat hI 1).div hI w1 (by norm_num) (by omega) p1
  | overInternal =>
    obtain ⟨_, g2, g3⟩ := h2 rfl
    have := bw rfl
    exact (whole_nat hI 1).div hI g2 (by norm_num) (by omega) g3
  | perimOverRadius =>
    obtain ⟨g1, _, _⟩ := h2 rfl
    obtain ⟨d1, d2⟩ := bw rfl
    simp only [ratioBounds, arValue] at b1 b2 ⊢
    generalize 6 * N * S = D at *
    generalize N * V = Q at *
    by_cases hd : dim = 2
    · simp only [if_pos hd] at b1 b2 ⊢
      exact (g1.mul hI g1 (by omega) (by omega)).div hI w1 (by omega) (by omega) p1
    · simp only [if_neg hd] at b1 b2 ⊢
      have dd : D * D ≤ 2 ^ 51 := mul_le_left b1 d1
      exact ((g1.mul hI g1 (by omega) (by omega)).mul hI g1 (by omega) (by omega)).div hI (w1.mul hI w1 (by omega) (by omega))
        (by omega) (by omega) (mul_one_le hI p1 p1)
  | external => exact (h2 rfl).1.near
  | algebraic =>
    obtain ⟨g1, _, _⟩ := h2 rfl
    obtain ⟨d1, d2⟩ := bw rfl
    exact g1.div hI w1 (by omega) (by omega) p1
  | maxBaryOverRadius => cases nb
  | maxOverMinBary => cases nb
  | unknown => exact absurd rfl nu

theorem Grows.last {rp ci : List Nat} {xs : List Nat} {c : Nat} (h : Grows rp ci (xs ++ [c])) (hx : xs ≠ []) : ∃ y ∈ xs, Adj rp ci y c := by
  generalize hl : xs ++ [c] = l at h
  cases h with
  | seed s =>
    cases xs with
    | nil => exact absurd rfl hx
    | cons a xs => simp at hl
  | @next ys y d hg hd hy ha =>
    obtain ⟨rfl, h2⟩ := List.append_inj' hl rfl
    cases h2
    exact ⟨y, hy, ha⟩

include hI in
/-- on whole-number data, aspect ratios in doubles are ordered as the exact ones are -/
theorem ratios_whole (hz : WholeGraph z kind V S K) (hb : Bounds z.dim kind N V S K) (hs : Hash) :
    RatiosAgree z.rowPtr z.colInd N (FeatsWhole kind N V S K)
      (fun _ => NearFrac (ratioBounds z.dim kind N V S K).1 (ratioBounds z.dim kind N V S K).2)
      (arOf (z.convert dblOf) hs kind) (arOf (z.convert (fun k : Int => (k : ℝ))) hs kind) := by
  have ns : N * S ≤ 6 * N * S := Nat.mul_le_mul_right _ (by omega)
  have hS : kind.weights = true → 6 * N * S ≤ 2 ^ 53 ∧ N * S ≤ 2 ^ 51 := fun h => by
    have := hb.weight h
    omega
  have hN : 1 ≤ N := by
    have := hb.volume.1
    rcases Nat.eq_zero_or_pos N with h | h
    · rw [h] at this; omega
    · exact h
  refine ⟨fun s f hf => init_whole hI hz (fun h => mul_le_right (hS h).2 hN) hf, ?_, fun _ => near_order hI hb.prod hb.den.2 hb.den.1⟩
  intro c f f' xs n r f1 hg hxs hc hlen hf hstep
  simp only [arOf] at hstep ⊢
  rw [if_neg (by rw [hb.bary]; simp)] at hstep ⊢
  have grow : ∀ X, (xs.length + 1) * X ≤ N * X := fun X => Nat.mul_le_mul_right _ hlen
  have grow6 : (xs.length + 1) * (6 * S) ≤ 6 * N * S := by
    calc (xs.length + 1) * (6 * S) ≤ N * (6 * S) := grow _
      _ = 6 * N * S := by ring
  have len1 : (xs ++ [c]).length = xs.length + 1 := by simp
  by_cases hge : kind.geom = true
  · have hw : kind.weights = false := by cases kind <;> simp_all [ARKind.geom, ARKind.weights]
    rw [if_pos hge] at hstep ⊢
    unfold arGeom at hstep ⊢
    obtain ⟨⟨n1, b1⟩, h1, hstep⟩ := bind_ok_iff.1 hstep
    obtain ⟨b1', h1', ⟨k1, k2⟩, k3⟩ := basic_whole hI hz hb.volume.2 hS hf hlen hc (hg.last hxs) (by rw [hw]; exact h1)
    rw [hw] at h1'
    rw [h1', ok_bind]
    obtain ⟨y, hy, hstep⟩ := bind_ok_iff.1 hstep
    obtain ⟨y', hy', ⟨m1, m2⟩, m3, m4⟩ := geom_whole hI hz hge (hb.dist hge).2 hg hxs hc hlen (hf.geom hge) hy
    rw [hy', ok_bind]
    cases hstep
    refine ⟨_, _, rfl, ?_, ⟨by rw [len1]; exact k1, k2⟩, fun h => by simp [hw] at h, fun h => by simp [hw] at h,
      fun _ => Or.inr ⟨⟨m1, m2⟩, m3, m4⟩⟩
    exact value_whole hI hb _ ⟨k1.mono (grow V), k2⟩ (fun h => by simp [hw] at h) (fun _ => ⟨m1, m3, m4⟩)
  · rw [if_neg hge] at hstep ⊢
    unfold arPlain at hstep ⊢
    obtain ⟨⟨n1, b1⟩, h1, hstep⟩ := bind_ok_iff.1 hstep
    obtain ⟨b1', h1', ⟨k1, k2⟩, k3⟩ := basic_whole hI hz hb.volume.2 hS hf hlen hc (hg.last hxs) h1
    rw [h1', ok_bind]
    cases hstep
    refine ⟨_, _, rfl, ?_, ⟨by rw [len1]; exact k1, k2⟩, fun h => by rw [len1]; exact (k3 h).1,
      fun h => by rw [len1]; exact ⟨(k3 h).2.1, le_trans zero_le_one (k3 h).2.2⟩, fun h => absurd h hge⟩
    exact value_whole hI hb _ ⟨k1.mono (grow V), k2⟩ (fun h => ⟨(k3 h).1.mono grow6, (k3 h).2.1.mono (grow S), (k3 h).2.2⟩)
      (fun h => absurd h hge)

end CoMMA
