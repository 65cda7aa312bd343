import Verif.Lemmas.Turn
import Verif.Props.Units
import Verif.Lemmas.Double
import Mathlib.LinearAlgebra.UnitaryGroup
import Mathlib.Analysis.Complex.Trigonometric
/-! # C83: the orientation of the mesh in space does not matter -/

set_option linter.unusedSectionVars false

namespace CoMMA

section
variable {W : Type} [Num W] {P : Platform} {a : Args W} {o : Outs} {n D : Nat} {φ : List W → List W} {x : List (List W)}

/-- **C83.** Turning or reflecting the whole mesh does not change the outputs (or the error),
whatever the type of aspect ratio, and whether or not lines are built. -/
theorem C83_turned (hm : ValidMesh a n) (hp : ValidParams P a) (hW : LawfulLt W)
    (hu : UniqueRows a.rowPtr a.colInd) (hl : NoSelfLoop a.rowPtr a.colInd) (hmode : ValidMode (graphOf a) a o n)
    (ht : TurnsSpace D φ) (hx : Turned D φ a.centers x) :
    agglomerateOneLevel P { a with centers := x } o = agglomerateOneLevel P a o := by
  have hm' : ValidMesh { a with values := a.values, volumes := a.volumes, centers := x } n := by
    refine ⟨hm.pos, hm.crs, hm.sym, hm.uniq, hm.values, hm.volumes, ?_, hm.prio, hm.bnd, D, ?_⟩
    · show x.length = n
      rw [hx.1, List.length_map, hm.centers]
    · intro c hc
      have hc' : c ∈ a.centers.map φ := by rw [← hx.1]; exact hc
      obtain ⟨d, hd, rfl⟩ := List.mem_map.1 hc'
      exact ht.length d (hx.2 d hd)
  refine same_call_turned hm hp hm' hW hu hl hmode (fun _ => rfl) (fun _ => rfl) ?_ (fun _ => ⟨ht, hx⟩) ?_
  · intro _ i j ci cj ci' cj' h1 h2 g1 g2
    rw [hx.getElem?, h1] at g1
    rw [hx.getElem?, h2] at g2
    cases g1
    cases g2
    exact ht.dist2 (hx.2 _ (List.mem_of_getElem? h1)) (hx.2 _ (List.mem_of_getElem? h2))
  · intro _ _
    have hx' : Turned D φ (graphOf a).centers (graphOf (a.withData a.values a.volumes x a.prio)).centers := hx
    exact ⟨rfl, _, .turned rfl rfl (hx'.steps ht) (hx'.coupling ht rfl rfl rfl _)⟩

/-! ### Reversing axes -/

/-- coordinates of a point after the axes marked in `s` have been reversed -/
def reverseAxes (s : List Bool) (c : List W) : List W :=
  List.zipWith (fun (b : Bool) x => if b then Num.neg x else x) s c

/-- changing the signs of the operands changes the signs of the results only -/
structure SignsExactly (W : Type) [Num W] : Prop where
  add : ∀ x y : W, Num.add (Num.neg x) (Num.neg y) = Num.neg (Num.add x y)
  sub : ∀ x y : W, Num.sub (Num.neg x) (Num.neg y) = Num.neg (Num.sub x y)
  mulLeft : ∀ x y : W, Num.mul (Num.neg x) y = Num.neg (Num.mul x y)
  mulRight : ∀ x y : W, Num.mul x (Num.neg y) = Num.neg (Num.mul x y)
  negNeg : ∀ x : W, Num.neg (Num.neg x) = x
  zero : Num.neg (Num.ofNat 0 : W) = Num.ofNat 0

theorem reverseAxes_zip {f : W → W → W} (hf : ∀ x y, f (Num.neg x) (Num.neg y) = Num.neg (f x y)) :
    ∀ (s : List Bool) (c d : List W), reverseAxes s (List.zipWith f c d) = List.zipWith f (reverseAxes s c) (reverseAxes s d) := by
  intro s
  induction s with
  | nil => intro c d; rfl
  | cons b s ih =>
    intro c d
    cases c with
    | nil => simp [reverseAxes]
    | cons x c =>
      cases d with
      | nil => simp [reverseAxes]
      | cons y d =>
        have := ih c d
        unfold reverseAxes at this ⊢
        simp only [List.zipWith_cons_cons, this]
        cases b
        · rfl
        · simp only [if_true, hf]

theorem reverseAxes_map {f : W → W} (hf : ∀ x, f (Num.neg x) = Num.neg (f x)) :
    ∀ (s : List Bool) (c : List W), reverseAxes s (c.map f) = (reverseAxes s c).map f := by
  intro s
  induction s with
  | nil => intro c; rfl
  | cons b s ih =>
    intro c
    cases c with
    | nil => simp [reverseAxes]
    | cons x c =>
      have := ih c
      unfold reverseAxes at this ⊢
      simp only [List.zipWith_cons_cons, List.map_cons, this]
      cases b
      · rfl
      · simp only [if_true, hf]

theorem reverseAxes_mul (h : SignsExactly W) : ∀ (s : List Bool) (c d : List W), c.length = s.length → d.length = s.length →
    List.zipWith Num.mul (reverseAxes s c) (reverseAxes s d) = List.zipWith Num.mul c d := by
  intro s
  induction s with
  | nil =>
    intro c d h1 h2
    rw [List.length_eq_zero_iff.1 h1, List.length_eq_zero_iff.1 h2]
    rfl
  | cons b s ih =>
    intro c d h1 h2
    cases c with
    | nil => simp at h1
    | cons x c =>
      cases d with
      | nil => simp at h2
      | cons y d =>
        have := ih c d (by simpa using h1) (by simpa using h2)
        unfold reverseAxes at this ⊢
        simp only [List.zipWith_cons_cons, this]
        cases b
        · rfl
        · simp only [if_true, h.mulLeft, h.mulRight, h.negNeg]

theorem reverseAxes_zero (h : SignsExactly W) (s : List Bool) :
    reverseAxes s (List.replicate s.length (Num.ofNat 0 : W)) = List.replicate s.length (Num.ofNat 0) := by
  induction s with
  | nil => rfl
  | cons b s ih =>
    unfold reverseAxes at ih ⊢
    simp only [List.length_cons, List.replicate_succ, List.zipWith_cons_cons, ih]
    cases b
    · rfl
    · simp only [if_true, h.zero]

theorem reverseAxes_turns (h : SignsExactly W) (s : List Bool) : TurnsSpace (W := W) s.length (reverseAxes s) where
  length c hc := by simp [reverseAxes, hc]
  zero := reverseAxes_zero h s
  add c d _ _ := reverseAxes_zip h.add s c d
  sub c d _ _ := reverseAxes_zip h.sub s c d
  neg c _ := reverseAxes_map (fun _ => rfl) s c
  times c k _ := reverseAxes_map (fun x => h.mulRight k x) s c
  timesRight c k _ := reverseAxes_map (fun x => h.mulLeft x k) s c
  scalar c d hc hd := by
    unfold scalar
    rw [reverseAxes_mul h s c d hc hd]

end

/-! ### Double precision -/

theorem Dbl.sig_neg (x : Dbl) : (Dbl.neg x).sig = -x.sig := by
  unfold Dbl.sig Dbl.neg
  simp only [Int.natAbs_neg]
  rcases lt_trichotomy x.code 0 with h | h | h
  · rw [if_neg (by omega), if_pos h, _root_.neg_neg]
  · rw [if_neg (by omega), if_neg (by omega), h]
    decide
  · rw [if_pos (by omega), if_neg (by omega)]

theorem Dbl.isInf_neg (x : Dbl) : (Dbl.neg x).isInf = x.isInf := by
  unfold Dbl.isInf Dbl.neg
  rw [Int.natAbs_neg]

theorem Dbl.add_neg (x y : Dbl) : Dbl.add (Dbl.neg x) (Dbl.neg y) = Dbl.neg (Dbl.add x y) := by
  unfold Dbl.add
  rw [Dbl.isInf_neg, Dbl.isInf_neg, Dbl.sig_neg, Dbl.sig_neg]
  have hn : ∀ z : Dbl, (Dbl.neg z).code.natAbs = z.code.natAbs := fun z => Int.natAbs_neg _
  rw [hn, hn]
  split
  · rfl
  · split
    · rfl
    · rw [Dbl.neg_roundInt]
      congr 1
      ring

theorem Dbl.negative_neg {x y : Dbl} (hx : x.code ≠ 0) : Dbl.negative (Dbl.neg x) y = !(Dbl.negative x y) := by
  unfold Dbl.negative Dbl.neg
  simp only
  have h1 : decide (-x.code < 0) = !decide (x.code < 0) := by
    rcases lt_or_gt_of_ne hx with h | h
    · rw [decide_eq_false (by omega), decide_eq_true h]; rfl
    · rw [decide_eq_true (by omega), decide_eq_false (by omega)]; rfl
  rw [h1]
  cases decide (x.code < 0) <;> cases decide (y.code < 0) <;> rfl

theorem Dbl.mul_neg_left (x y : Dbl) : Dbl.mul (Dbl.neg x) y = Dbl.neg (Dbl.mul x y) := by
  unfold Dbl.mul
  rw [Dbl.isInf_neg]
  have hn : (Dbl.neg x).code.natAbs = x.code.natAbs := Int.natAbs_neg _
  rw [hn]
  have hz : (Dbl.neg x).code = 0 ↔ x.code = 0 := by unfold Dbl.neg; simp
  by_cases h0 : x.code = 0 ∨ y.code = 0
  · rw [if_pos (by rw [hz]; exact h0), if_pos h0]
    rfl
  · rw [if_neg (by rw [hz]; exact h0), if_neg h0, Dbl.negative_neg (fun h => h0 (Or.inl h))]
    split <;> rw [Dbl.neg_signed]

/-- doubles: the sign is apart from the rest of the number -/
theorem dbl_signs : SignsExactly Dbl where
  add := Dbl.add_neg
  sub x y := Dbl.add_neg x (Dbl.neg y)
  mulLeft := Dbl.mul_neg_left
  mulRight x y := by
    show Dbl.mul x (Dbl.neg y) = Dbl.neg (Dbl.mul x y)
    rw [Dbl.mant_comm, Dbl.mul_neg_left, Dbl.mant_comm]
  negNeg := Dbl.neg_neg
  zero := rfl

/-- **C83**, in double precision: reversing any of the axes (a reflection, a half turn, the
inversion of space) does not change the outputs. -/
theorem C83_reversed_double {P : Platform} {a : Args Dbl} {o : Outs} {n : Nat} (hm : ValidMesh a n) (hp : ValidParams P a)
    (hu : UniqueRows a.rowPtr a.colInd) (hl : NoSelfLoop a.rowPtr a.colInd) (hmode : ValidMode (graphOf a) a o n)
    (s : List Bool) (hs : ∀ c ∈ a.centers, c.length = s.length) :
    agglomerateOneLevel P { a with centers := a.centers.map (reverseAxes s) } o = agglomerateOneLevel P a o :=
  C83_turned hm hp dbl_lawful hu hl hmode (reverseAxes_turns dbl_signs s) ⟨rfl, hs⟩

/-! ### Real numbers: every orthogonal matrix -/

/-- the coordinates of a point as a vector -/
def coordsOf (D : Nat) (c : List ℝ) : Fin D → ℝ := fun j => c.getD j 0

/-- a point multiplied by a matrix -/
noncomputable def turnBy {D : Nat} (A : Matrix (Fin D) (Fin D) ℝ) (c : List ℝ) : List ℝ := List.ofFn (A.mulVec (coordsOf D c))

theorem coordsOf_zip {D : Nat} {f : ℝ → ℝ → ℝ} {c d : List ℝ} (hc : c.length = D) (hd : d.length = D) :
    coordsOf D (List.zipWith f c d) = fun j => f (coordsOf D c j) (coordsOf D d j) := by
  funext j
  have h1 : j.1 < c.length := by rw [hc]; exact j.2
  have h2 : j.1 < d.length := by rw [hd]; exact j.2
  simp [coordsOf, List.getD_eq_getElem?_getD, List.getElem?_zipWith, List.getElem?_eq_getElem h1, List.getElem?_eq_getElem h2]

theorem coordsOf_map {D : Nat} {f : ℝ → ℝ} {c : List ℝ} (hc : c.length = D) :
    coordsOf D (c.map f) = fun j => f (coordsOf D c j) := by
  funext j
  have h1 : j.1 < c.length := by rw [hc]; exact j.2
  simp [coordsOf, List.getD_eq_getElem?_getD, List.getElem?_eq_getElem h1]

theorem coordsOf_ofFn {D : Nat} (v : Fin D → ℝ) : coordsOf D (List.ofFn v) = v := by
  funext j
  simp [coordsOf, List.getD_eq_getElem?_getD]

theorem ofFn_zip {D : Nat} (f : ℝ → ℝ → ℝ) (v w : Fin D → ℝ) :
    List.zipWith f (List.ofFn v) (List.ofFn w) = List.ofFn (fun i => f (v i) (w i)) := by
  apply List.ext_getElem
  · simp
  · intro k h1 h2
    simp

theorem ofFn_coordsOf {D : Nat} {c : List ℝ} (hc : c.length = D) : List.ofFn (coordsOf D c) = c := by
  apply List.ext_getElem
  · simp [hc]
  · intro k h1 h2
    simp [coordsOf, List.getD_eq_getElem?_getD, List.getElem?_eq_getElem h2]

theorem scalar_real {lo hi : ℝ} {D : Nat} (v w : Fin D → ℝ) :
    @scalar ℝ (realNum lo hi) (List.ofFn v) (List.ofFn w) = v ⬝ᵥ w := by
  let _ := realNum lo hi
  have hs : ∀ l : List ℝ, ∀ b : ℝ, l.foldl (fun x y => x + y) b = b + l.sum := by
    intro l
    induction l with
    | nil => intro b; simp
    | cons x l ih => intro b; rw [List.foldl_cons, ih, List.sum_cons, add_assoc]
  show (List.zipWith (fun x y => x * y) (List.ofFn v) (List.ofFn w)).foldl (fun x y => x + y) ((0 : Nat) : ℝ) = _
  rw [hs, ofFn_zip, List.sum_ofFn, Nat.cast_zero, zero_add]
  rfl

/-- multiplication by an orthogonal matrix turns space -/
theorem orthogonal_turns {lo hi : ℝ} {D : Nat} {A : Matrix (Fin D) (Fin D) ℝ} (hA : A ∈ Matrix.orthogonalGroup (Fin D) ℝ) :
    @TurnsSpace ℝ (realNum lo hi) D (turnBy A) := by
  let _ := realNum lo hi
  refine @TurnsSpace.mk ℝ (realNum lo hi) D (turnBy A) ?_ ?_ ?_ ?_ ?_ ?_ ?_ ?_
  · intro c _
    simp [turnBy]
  · show turnBy A (List.replicate D ((0 : Nat) : ℝ)) = List.replicate D ((0 : Nat) : ℝ)
    have e : List.replicate D ((0 : Nat) : ℝ) = List.ofFn (fun _ : Fin D => (0 : ℝ)) := by simp
    rw [e]
    unfold turnBy
    rw [coordsOf_ofFn]
    exact congrArg List.ofFn (Matrix.mulVec_zero A)
  · intro c d hc hd
    show turnBy A (List.zipWith (fun x y => x + y) c d) = List.zipWith (fun x y => x + y) (turnBy A c) (turnBy A d)
    unfold turnBy
    rw [ofFn_zip, coordsOf_zip hc hd]
    exact congrArg List.ofFn (Matrix.mulVec_add A (coordsOf D c) (coordsOf D d))
  · intro c d hc hd
    show turnBy A (List.zipWith (fun x y => x - y) c d) = List.zipWith (fun x y => x - y) (turnBy A c) (turnBy A d)
    unfold turnBy
    rw [ofFn_zip, coordsOf_zip hc hd]
    exact congrArg List.ofFn (Matrix.mulVec_sub A (coordsOf D c) (coordsOf D d))
  · intro c hc
    show turnBy A (c.map (fun x => -x)) = (turnBy A c).map (fun x => -x)
    unfold turnBy
    rw [List.map_ofFn, coordsOf_map hc]
    exact congrArg List.ofFn (Matrix.mulVec_neg (coordsOf D c) A)
  · intro c k hc
    show turnBy A (c.map (fun x => k * x)) = (turnBy A c).map (fun x => k * x)
    unfold turnBy
    rw [List.map_ofFn, coordsOf_map hc]
    exact congrArg List.ofFn (Matrix.mulVec_smul A k (coordsOf D c))
  · intro c k hc
    show turnBy A (c.map (fun x => x * k)) = (turnBy A c).map (fun x => x * k)
    unfold turnBy
    simp only [mul_comm _ k]
    rw [List.map_ofFn, coordsOf_map hc]
    exact congrArg List.ofFn (Matrix.mulVec_smul A k (coordsOf D c))
  · intro c d hc hd
    have h1 : A.transpose * A = 1 := (Matrix.mem_orthogonalGroup_iff' (Fin D) ℝ).1 hA
    unfold turnBy
    conv_rhs => rw [← ofFn_coordsOf hc, ← ofFn_coordsOf hd]
    rw [scalar_real, scalar_real, Matrix.dotProduct_mulVec, Matrix.vecMul_mulVec, h1, Matrix.vecMul_one]

/-- **C83**, in exact arithmetic: multiplying the coordinates of all the centers by the same
orthogonal matrix, that is turning or reflecting the mesh in any way about the origin, does
not change the outputs. -/
theorem C83_turned_real {lo hi : ℝ} {P : Platform} {a : Args ℝ} {o : Outs} {n D : Nat} (hm : @ValidMesh ℝ (realNum lo hi) a n)
    (hp : @ValidParams ℝ (realNum lo hi) P a)
    (hu : UniqueRows a.rowPtr a.colInd) (hl : NoSelfLoop a.rowPtr a.colInd)
    (hmode : @ValidMode ℝ (realNum lo hi) (graphOf a) a o n) (hD : ∀ c ∈ a.centers, c.length = D)
    (A : Matrix (Fin D) (Fin D) ℝ) (hA : A ∈ Matrix.orthogonalGroup (Fin D) ℝ) :
    @agglomerateOneLevel ℝ (realNum lo hi) P { a with centers := a.centers.map (turnBy A) } o =
      @agglomerateOneLevel ℝ (realNum lo hi) P a o :=
  @C83_turned ℝ (realNum lo hi) P a o n D (turnBy A) _ hm hp real_lawful hu hl hmode (orthogonal_turns hA) ⟨rfl, hD⟩


/-! ### Concrete cases -/

theorem int_signs : SignsExactly Int where
  add x y := by show -x + -y = -(x + y); omega
  sub x y := by show -x - -y = -(x - y); omega
  mulLeft x y := Int.neg_mul x y
  mulRight x y := Int.mul_neg x y
  negNeg x := Int.neg_neg x
  zero := rfl

/-- a call that builds lines, seen in a mirror -/
example := C83_turned (x := exBuild.centers.map (reverseAxes [true, false])) (o := ⟨[], [], []⟩) exBuild_valid exBuild_params exLawful
  (checkUniq_sound exCols_crs (by decide)) (checkNoLoop_sound exCols_crs (by decide)) (exBuild_mode _)
  (reverseAxes_turns int_signs [true, false]) ⟨rfl, by decide⟩

theorem rat_signs : @SignsExactly Rat ratNum :=
  @SignsExactly.mk Rat ratNum (fun x y => by show -x + -y = -(x + y); ring) (fun x y => by show -x - -y = -(x - y); ring)
    (fun x y => by show -x * y = -(x * y); ring) (fun x y => by show x * -y = -(x * y); ring) (fun x => _root_.neg_neg x) rfl

/-- a call with the barycenter, after half a turn -/
example (kind : ARKind) (hk : kind ≠ .unknown) := @C83_turned Rat ratNum exPlatform (exShift kind) ⟨[], [], []⟩ 3 2 _
  ((exShift kind).centers.map (@reverseAxes Rat ratNum [true, true])) (exShift_valid kind)
  (exShift_params hk) ratLawful (checkUniq_sound exBary_crs (show checkUniq 3 exBary.rowPtr exBary.colInd = true by decide))
  (checkNoLoop_sound exBary_crs (show checkNoLoop 3 exBary.rowPtr exBary.colInd = true by decide)) (exShift_mode _ _)
  (@reverseAxes_turns Rat ratNum rat_signs [true, true])
  ⟨rfl, show ∀ c ∈ ([[1, 0], [2, 0], [1, -1]] : List (List Rat)), c.length = 2 by decide +kernel⟩

/-- rotation of the plane by an angle -/
noncomputable def rotation (θ : ℝ) : Matrix (Fin 2) (Fin 2) ℝ := !![Real.cos θ, -Real.sin θ; Real.sin θ, Real.cos θ]

theorem rotation_orthogonal (θ : ℝ) : rotation θ ∈ Matrix.orthogonalGroup (Fin 2) ℝ := by
  rw [Matrix.mem_orthogonalGroup_iff']
  have h := Real.sin_sq_add_cos_sq θ
  ext i j
  fin_cases i <;> fin_cases j <;> simp [rotation, Matrix.mul_apply, Fin.sum_univ_two] <;> nlinarith

/-- two columns of cells with lines built by the call, turned by any angle -/
example (θ : ℝ) := C83_turned_real (lo := 0) (hi := 1000) (a := exReal) (o := ⟨[], [], []⟩) exReal_valid exReal_params
  (checkUniq_sound exCols_crs (by decide)) (checkNoLoop_sound exCols_crs (by decide)) (exReal_mode _) (by
    intro c hc
    obtain ⟨d, hd, rfl⟩ := List.mem_map.1 (show c ∈ exCols.centers.map (fun c => c.map (fun x : Int => (x : ℝ))) from hc)
    rw [List.length_map]
    exact (by decide : ∀ d ∈ exCols.centers, d.length = 2) d hd) (rotation θ) (rotation_orthogonal θ)

/-- three cells `1 - 0 - 2` in space, the cells 1 and 2 being mirror images of each other when
the second and the third axis are exchanged -/
def exExchange (centers : List (List Dbl)) : Args Dbl where
  rowPtr := [0, 2, 3, 4]
  colInd := [1, 2, 0, 0]
  values := List.replicate 4 (Dbl.dec 1 0)
  volumes := List.replicate 3 (Dbl.dec 1 0)
  centers := centers
  prio := [Dbl.dec 3 0, Dbl.dec 2 0, Dbl.dec 1 0]
  compliant := []
  nBnd := [3, 1, 1]
  buildLines := false
  isAniso := false
  oddLine := false
  thr := Dbl.dec 4 0
  order := .boundary
  correction := false
  dim := 3
  goalCard := 2
  minCard := 2
  maxCard := 2
  aspect := .diameter
  singThresh := 1
  maxCells := none
  coupling := .maxWeight
  forceDir := true
  fcIter := 1
  nbh := .extended

/-- centers of the three cells -/
def exExchangeCenters : List (List Dbl) :=
  [[Dbl.dec 0 0, Dbl.dec 0 0, Dbl.dec 0 0], [Dbl.dec 1 1, Dbl.dec 2 1, Dbl.dec 5 1], [Dbl.dec 1 1, Dbl.dec 5 1, Dbl.dec 2 1]]

theorem exExchange_crs : ValidCRS 3 (exExchange exExchangeCenters).rowPtr (exExchange exExchangeCenters).colInd :=
  checkCRS_sound (by decide)

theorem exExchange_valid : ValidMesh (exExchange exExchangeCenters) 3 :=
  ⟨by decide, exExchange_crs, checkSym_sound exExchange_crs (by decide), Or.inr dbl_lawful, rfl, rfl, rfl, rfl, rfl, 3, by decide⟩

theorem exExchange_params : ValidParams exPlatform (exExchange exExchangeCenters) :=
  ⟨by decide, by decide, by decide, by decide, by decide, by decide, by decide, by decide, by rintro (h | h) <;> cases h⟩

/-- the call in double precision, with the first and the last axis reversed -/
example := C83_reversed_double (o := ⟨[], [], []⟩) exExchange_valid exExchange_params (checkUniq_sound exExchange_crs (by decide))
  (checkNoLoop_sound exExchange_crs (by decide)) ⟨Or.inl (Or.inl rfl), fun _ _ => by intro l _ m h; cases h⟩ [true, false, true]
  (by decide)

/-- **C83 is false of other turns in double precision**: exchanging the second and the third
axis changes the coarse cells, because the squares of the coordinates are added in another
order. -/
theorem C83_exchange_counterexample :
    ∃ (a : Args Dbl) (o : Outs), ValidMesh a 3 ∧ ValidParams exPlatform a ∧ UniqueRows a.rowPtr a.colInd ∧
      NoSelfLoop a.rowPtr a.colInd ∧ a.isAniso = false ∧ (∀ c ∈ a.centers, c.length = 3) ∧
      (agglomerateOneLevel exPlatform a o).1.fcToCc = [0, 0, 1] ∧
      (agglomerateOneLevel exPlatform
        { a with centers := a.centers.map (fun c => [c.getD 0 ⟨0⟩, c.getD 2 ⟨0⟩, c.getD 1 ⟨0⟩]) } o).1.fcToCc = [0, 1, 0] :=
  ⟨exExchange exExchangeCenters, ⟨[], [], []⟩, exExchange_valid, exExchange_params, checkUniq_sound exExchange_crs (by decide),
    checkNoLoop_sound exExchange_crs (by decide), rfl, by decide, by decide +kernel, by decide +kernel⟩

end CoMMA
