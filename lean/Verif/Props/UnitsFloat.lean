import Verif.Spec.Rounding
import Verif.Props.Units
/-! # Change of units in rounded arithmetic: powers of two -/

namespace CoMMA

variable {P : Platform} {o : Outs} {n : Nat}

theorem two_zpow_pos (k : ℤ) : (0 : ℝ) < 2 ^ k := zpow_pos two_pos k

theorem log_two_mul (k : ℤ) {x : ℝ} (hx : 0 < x) : Int.log 2 ((2 : ℝ) ^ k * x) = k + Int.log 2 x := by
  have hpos : 0 < (2 : ℝ) ^ k * x := mul_pos (two_zpow_pos k) hx
  apply le_antisymm
  · have h1 := Int.zpow_log_le_self (R := ℝ) (b := 2) (by norm_num) hpos
    have h2 : ((2 : ℕ) : ℝ) ^ (Int.log 2 ((2 : ℝ) ^ k * x) - k) ≤ x := by
      rw [zpow_sub₀ (by norm_num), div_le_iff₀ (by exact_mod_cast two_zpow_pos k)]
      calc _ ≤ _ := h1
        _ = _ := by push_cast; ring
    have h3 := (Int.zpow_le_iff_le_log (by norm_num) hx).1 h2
    omega
  · rw [← Int.zpow_le_iff_le_log (by norm_num) hpos, zpow_add₀ (by norm_num)]
    have h1 := Int.zpow_log_le_self (R := ℝ) (b := 2) (by norm_num) hx
    have := mul_le_mul_of_nonneg_left h1 (two_zpow_pos k).le
    push_cast at this ⊢
    exact this

theorem lastDigit_scale (p : Nat) (k : ℤ) {x : ℝ} (hx : x ≠ 0) : lastDigit p ((2 : ℝ) ^ k * x) = k + lastDigit p x := by
  unfold lastDigit
  rw [abs_mul, abs_of_pos (two_zpow_pos k), log_two_mul k (abs_pos.2 hx)]
  ring

/-- rounding to the nearest number with any number of binary digits commutes with powers of two -/
theorem nearestBits_binary (p : Nat) : BinaryRounding (nearestBits p) := by
  intro k x
  unfold nearestBits
  have h2 := (two_zpow_pos k).ne'
  by_cases hx : x = 0
  · rw [if_pos (by rw [hx, mul_zero]), if_pos hx, mul_zero]
  · rw [if_neg (mul_ne_zero h2 hx), if_neg hx, lastDigit_scale p k hx, zpow_add₀ two_ne_zero, mul_div_mul_left _ _ h2, mul_assoc]

variable {rnd : ℝ → ℝ} {lo hi : ℝ}

theorem BinaryRounding.zero (h : BinaryRounding rnd) : rnd 0 = 0 := by
  have := h 1 0
  rw [mul_zero, zpow_one] at this
  linarith

theorem rounded_rescales (h : BinaryRounding rnd) (k : ℤ) :
    @Rescales ℝ (roundedNum rnd lo hi) (fun x => (2 : ℝ) ^ k * x) (fun x => (2 : ℝ) ^ (-k) * x) :=
  let _ := roundedNum rnd lo hi
  { add := fun x y => by show rnd (2 ^ k * x + 2 ^ k * y) = 2 ^ k * rnd (x + y); rw [← mul_add, h]
    sub := fun x y => by show rnd (2 ^ k * x - 2 ^ k * y) = 2 ^ k * rnd (x - y); rw [← mul_sub, h]
    mulLeft := fun x y => by show rnd (2 ^ k * x * y) = 2 ^ k * rnd (x * y); rw [mul_assoc, h]
    mulRight := fun x y => by show rnd (x * (2 ^ k * y)) = 2 ^ k * rnd (x * y); rw [mul_left_comm, h]
    divLeft := fun x y => by show rnd (2 ^ k * x / y) = 2 ^ k * rnd (x / y); rw [mul_div_assoc, h]
    divRight := fun x y => by
      show rnd (x / (2 ^ k * y)) = 2 ^ (-k) * rnd (x / y)
      rw [← h, zpow_neg, div_mul_eq_div_div, div_right_comm]
      congr 1
      rw [div_eq_mul_inv, mul_comm]
    reduce := fun l => by
      show (l.map (fun x => (2 : ℝ) ^ k * x)).foldl (fun s x => rnd (s + x)) 0 = 2 ^ k * l.foldl (fun s x => rnd (s + x)) 0
      have : ∀ (l : List ℝ) (s : ℝ), (l.map (fun x => (2 : ℝ) ^ k * x)).foldl (fun s x => rnd (s + x)) (2 ^ k * s) =
          2 ^ k * l.foldl (fun s x => rnd (s + x)) s := by
        intro l
        induction l with
        | nil => exact fun s => rfl
        | cons x l ih =>
          intro s
          rw [List.map_cons, List.foldl_cons, List.foldl_cons, ← mul_add, h, ih]
      have h0 := this l 0
      rwa [mul_zero] at h0
    lt := fun x y => by
      show decide (2 ^ k * x < 2 ^ k * y) = decide (x < y)
      rw [decide_eq_decide]
      exact mul_lt_mul_iff_right₀ (two_zpow_pos k)
    zero := by
      show (2 : ℝ) ^ k * rnd ((0 : Nat) : ℝ) = rnd ((0 : Nat) : ℝ)
      rw [Nat.cast_zero, h.zero, mul_zero]
    inv := fun x => by
      show (2 : ℝ) ^ k * (2 ^ (-k) * x) = x
      rw [← mul_assoc, ← zpow_add₀ two_ne_zero, add_neg_cancel, zpow_zero, one_mul] }

theorem rounded_unitChange (h : BinaryRounding rnd) (k : ℤ) :
    @UnitChange ℝ (roundedNum rnd lo hi) (fun x => (2 : ℝ) ^ k * x) (fun x => (2 : ℝ) ^ (-k) * x) := by
  refine ⟨rounded_rescales h k, ?_⟩
  have := rounded_rescales (lo := lo) (hi := hi) h (-k)
  rwa [neg_neg] at this

theorem rounded_roots (h : BinaryRounding rnd) (k : ℤ) : @RootScales ℝ (roundedNum rnd lo hi) (fun x => (2 : ℝ) ^ k * x) := by
  intro x
  show rnd (Real.sqrt (2 ^ k * (2 ^ k * x))) = 2 ^ k * rnd (Real.sqrt x)
  rw [← mul_assoc, Real.sqrt_mul (mul_self_nonneg _), Real.sqrt_mul_self (two_zpow_pos k).le, h]

theorem rounded_lawful : @LawfulLt ℝ (roundedNum rnd lo hi) :=
  @LawfulLt.mk ℝ (roundedNum rnd lo hi) (fun a => by simp [Num.lt])
    (fun a b c => by simp only [Num.lt, decide_eq_true_eq]; exact lt_trans)
    (fun a b => by
      simp only [Num.lt, decide_eq_false_iff_not, not_lt]
      intro h1 h2
      exact le_antisymm h2 h1)

/-- **C69.** In binary floating point with any number of digits (and exponents without limits),
multiplying weights, volumes and lengths by powers of two does not change the outputs. -/
theorem C69_powers_of_two_partial {p : Nat} {a : Args ℝ} (kw kv kl : ℤ)
    (hm : @ValidMesh ℝ (roundedNum (nearestBits p) lo hi) a n) (hp : @ValidParams ℝ (roundedNum (nearestBits p) lo hi) P a)
    (hun : UniqueRows a.rowPtr a.colInd) (hnl : NoSelfLoop a.rowPtr a.colInd)
    (hmode : @ValidMode ℝ (roundedNum (nearestBits p) lo hi) (graphOf a) a o n) (hk : a.aspect.byDistances)
    (hd : a.aspect.usesCenters → @DistancesInRange ℝ (roundedNum (nearestBits p) lo hi) a.centers ∧
      @DistancesInRange ℝ (roundedNum (nearestBits p) lo hi)
        (a.inUnits (fun x => 2 ^ kw * x) (fun x => 2 ^ kv * x) (fun x => 2 ^ kl * x)).centers)
    (hlines : a.isAniso = true → a.buildLines = true → (∀ w ∈ a.values, w ≤ hi ∧ 2 ^ kw * w ≤ hi)) :
    @agglomerateOneLevel ℝ (roundedNum (nearestBits p) lo hi) P
        (a.inUnits (fun x => 2 ^ kw * x) (fun x => 2 ^ kv * x) (fun x => 2 ^ kl * x)) o =
      @agglomerateOneLevel ℝ (roundedNum (nearestBits p) lo hi) P a o := by
  let _ := roundedNum (nearestBits p) lo hi
  have hb := nearestBits_binary p
  refine C69_units_partial hm hp rounded_lawful hun hnl hmode hk (rounded_unitChange hb kw) (rounded_unitChange hb kv)
    (rounded_unitChange hb kl) hd ?_
  intro h1 h2
  have h3 := hlines h1 h2
  refine ⟨rounded_roots hb kl, ?_, ?_⟩
  · intro w hw'
    show decide (hi < w) = false
    rw [decide_eq_false_iff_not, not_lt]
    exact (h3 w hw').1
  · intro w hw'
    obtain ⟨v, hv', rfl⟩ := List.mem_map.1 (show w ∈ a.values.map (fun x => 2 ^ kw * x) from hw')
    show decide (hi < 2 ^ kw * v) = false
    rw [decide_eq_false_iff_not, not_lt]
    exact (h3 v hv').2

/-! ### Concrete cases -/

/-- 1/3 is rounded: the arithmetic is not exact -/
example : nearestBits 2 (1 / 3) = 3 / 8 := by
  have hl : Int.log 2 |(1 / 3 : ℝ)| = -2 := by
    rw [abs_of_pos (by norm_num)]
    apply le_antisymm
    · have : Int.log 2 (1 / 3 : ℝ) < -1 := by
        rw [← Int.lt_zpow_iff_log_lt (by norm_num) (by norm_num)]
        norm_num
      omega
    · rw [← Int.zpow_le_iff_le_log (by norm_num) (by norm_num)]
      norm_num
  have hd : lastDigit 2 (1 / 3) = -3 := by unfold lastDigit; rw [hl]; norm_num
  have hf : ⌊(8 / 3 : ℝ)⌋ = 2 := by rw [Int.floor_eq_iff]; norm_num
  have hfr : Int.fract (8 / 3 : ℝ) = 2 / 3 := by rw [Int.fract, hf]; norm_num
  unfold nearestBits
  rw [if_neg (by norm_num), hd, show (1 / 3 : ℝ) / 2 ^ (-3 : ℤ) = 8 / 3 by norm_num]
  unfold nearestInt
  rw [hfr, hf, if_neg (by norm_num), if_pos (by norm_num)]
  norm_num

theorem nearestBits_one : nearestBits 53 1 = 1 := by
  have hl : Int.log 2 |(1 : ℝ)| = 0 := by rw [abs_one, Int.log_one_right]
  have hd : lastDigit 53 1 = -52 := by unfold lastDigit; rw [hl]; norm_num
  have he : (1 : ℝ) / 2 ^ (-52 : ℤ) = ((2 ^ 52 : ℤ) : ℝ) := by norm_num
  unfold nearestBits
  rw [if_neg one_ne_zero, hd, he]
  unfold nearestInt
  rw [Int.fract_intCast, Int.floor_intCast, if_pos (by norm_num)]
  norm_num

theorem exReal_valid_bits : @ValidMesh ℝ (roundedNum (nearestBits 53) 0 1000) exReal 6 :=
  @ValidMesh.mk ℝ (roundedNum (nearestBits 53) 0 1000) exReal 6 (@ValidMesh.pos ℝ (realNum 0 1000) _ _ exReal_valid)
    (@ValidMesh.crs ℝ (realNum 0 1000) _ _ exReal_valid) (@ValidMesh.sym ℝ (realNum 0 1000) _ _ exReal_valid)
    (Or.inr rounded_lawful) (@ValidMesh.values ℝ (realNum 0 1000) _ _ exReal_valid)
    (@ValidMesh.volumes ℝ (realNum 0 1000) _ _ exReal_valid) (@ValidMesh.centers ℝ (realNum 0 1000) _ _ exReal_valid)
    (@ValidMesh.prio ℝ (realNum 0 1000) _ _ exReal_valid) (@ValidMesh.bnd ℝ (realNum 0 1000) _ _ exReal_valid)
    (@ValidMesh.coords ℝ (realNum 0 1000) _ _ exReal_valid)

theorem exReal_params_bits : @ValidParams ℝ (roundedNum (nearestBits 53) 0 1000) exPlatform exReal :=
  let _ := roundedNum (nearestBits 53) 0 1000
  ⟨by decide, by decide, by decide, by decide, by decide, by decide, by decide, by decide, by decide⟩

theorem exReal_mode_bits (o : Outs) : @ValidMode ℝ (roundedNum (nearestBits 53) 0 1000) (graphOf exReal) exReal o 6 := by
  let _ := roundedNum (nearestBits 53) 0 1000
  have hz : nearestBits 53 ((0 : Nat) : ℝ) = 0 := by rw [Nat.cast_zero, (nearestBits_binary 53).zero]
  refine ⟨Or.inr (Or.inl ⟨⟨rfl, rfl, by decide, ?_⟩, ?_⟩), fun _ _ => by intro l _ m h; cases h⟩
  · intro h
    have e : Num.lt (Num.ofNat 1) exReal.thr = true := by
      show decide (nearestBits 53 ((1 : Nat) : ℝ) < 4) = true
      rw [Nat.cast_one, nearestBits_one]
      norm_num
    unfold meantThreshold at h
    rw [if_neg (by rw [e]; simp)] at h
    have : decide ((4 : ℝ) < nearestBits 53 ((0 : Nat) : ℝ)) = true := h
    rw [hz] at this
    simp at this
    linarith
  · rintro i n w ⟨k, _, hk⟩
    have := (exReal_weights w (List.mem_of_getElem? hk)).1
    show decide (w < nearestBits 53 ((0 : Nat) : ℝ)) = false
    rw [hz]
    simpa using this

/-- 53 digits, weights eight times larger, volumes halved, lengths four times larger -/
example := C69_powers_of_two_partial (p := 53) (lo := 0) (hi := 1000) (a := exReal) (o := ⟨[], [], []⟩) 3 (-1) 2
  exReal_valid_bits exReal_params_bits (checkUniq_sound exCols_crs (by decide)) (checkNoLoop_sound exCols_crs (by decide))
  (exReal_mode_bits _) ⟨nofun, nofun⟩ (fun h => absurd h (by simp [exReal, ARKind.usesCenters]))
  (fun _ _ w hw => by
    have := exReal_weights w hw
    exact ⟨by linarith, by norm_num; linarith⟩)

end CoMMA
