import Verif.Lemmas.DoubleDir
import Verif.Props.Straight
import Mathlib.Analysis.SpecialFunctions.Trigonometric.Bounds
/-! # C84 in double precision -/

set_option linter.unusedSectionVars false

namespace CoMMA

/-- the point of the space a list of doubles stands for -/
noncomputable def pointOfDbl (D : Nat) (c : List Dbl) : EuclideanSpace ℝ (Fin D) := pointOf D (c.map Dbl.real)

namespace Dbl

theorem real_ofNat_zero : (Num.ofNat 0 : Dbl).Finite ∧ (Num.ofNat 0 : Dbl).real = 0 := by
  have := ofNat_exact (n := 0) (by norm_num)
  refine ⟨this.1, ?_⟩
  unfold real
  show ((roundInt ((0 : Nat) : Int) 1 0).value : ℝ) = 0
  rw [this.2]
  norm_num

theorem sumUp_real {lo hi : ℝ} (l : List ℝ) : @sumUp ℝ (realNum lo hi) l = l.sum := by
  have : ∀ (l : List ℝ) (s : ℝ), l.foldl (fun a b => a + b) s = s + l.sum := by
    intro l
    induction l with
    | nil => intro s; simp
    | cons a l ih => intro s; rw [List.foldl_cons, ih, List.sum_cons, add_assoc]
  show l.foldl (fun a b => a + b) ((0 : Nat) : ℝ) = _
  rw [this, Nat.cast_zero, _root_.zero_add]

/-- coordinates of the vector between two points -/
theorem vec_near {lo hi : ℝ} : ∀ {p q : List Dbl}, (∀ x ∈ p, x.Finite) → (∀ x ∈ q, x.Finite) →
    (∀ v ∈ @vecFrom ℝ (realNum lo hi) (p.map real) (q.map real), |v| ≤ (2 : ℝ) ^ (1000 : Int)) →
    List.Forall₂ (fun x v => x.Finite ∧ |x.real - v| ≤ 1 / 2 ^ 53 * |v|) (vecFrom p q)
      (@vecFrom ℝ (realNum lo hi) (p.map real) (q.map real))
  | [], _, _, _, _ => by simp [vecFrom]
  | _ :: _, [], _, _, _ => by simp [vecFrom]
  | a :: p, b :: q, hp, hq, h => by
    have ih := vec_near (lo := lo) (hi := hi) (p := p) (q := q) (fun x hx => hp x (by simp [hx])) (fun x hx => hq x (by simp [hx]))
      (fun v hv => h v (List.mem_cons_of_mem _ hv))
    refine List.Forall₂.cons ?_ ih
    exact real_sub (hq b (by simp)) (hp a (by simp)) (h _ (List.mem_cons_self ..))

/-- products of the coordinates of two vectors -/
theorem zip_near {R R' Q : Dbl → ℝ → Prop} (hR : ∀ x X y Y, R x X → R' y Y → Q (Num.mul x y) (X * Y)) :
    ∀ {l : List Dbl} {L : List ℝ} {m : List Dbl} {M : List ℝ}, List.Forall₂ R l L → List.Forall₂ R' m M →
      List.Forall₂ Q (List.zipWith Num.mul l m) (List.zipWith (fun x y => x * y) L M) := by
  intro l L m M h
  induction h generalizing m M with
  | nil => intro h'; simp
  | cons hx _ ih =>
    intro h'
    cases h' with
    | nil => simp
    | cons hy hm => exact List.Forall₂.cons (hR _ _ _ _ hx hy) (ih hm)

theorem zip_self (V : List ℝ) : List.zipWith (fun x y => x * y) V V = V.map (fun v => v * v) := by
  induction V with
  | nil => rfl
  | cons a V ih => rw [List.zipWith_cons_cons, ih, List.map_cons]

theorem square_le_sum {V : List ℝ} {v : ℝ} (hv : v ∈ V) : v * v ≤ (V.map (fun v => v * v)).sum :=
  List.single_le_sum (by intro x hx; obtain ⟨y, _, rfl⟩ := List.mem_map.1 hx; exact mul_self_nonneg y) _ (List.mem_map.2 ⟨v, hv, rfl⟩)

/-- relation that remembers membership -/
theorem forall₂_mem {R : Dbl → ℝ → Prop} {l : List Dbl} {L : List ℝ} (h : List.Forall₂ R l L) :
    List.Forall₂ (fun x X => R x X ∧ X ∈ L) l L := by
  induction h with
  | nil => exact .nil
  | cons hx _ ih => exact .cons ⟨hx, by simp⟩ (ih.imp fun _ _ h => ⟨h.1, by simp [h.2]⟩)

/-- sums of squares -/
theorem scalarSelf_near {xs : List Dbl} {V : List ℝ} (h : List.Forall₂ (fun x v => x.Finite ∧ |x.real - v| ≤ 1 / 2 ^ 53 * |v|) xs V)
    (hlen : V.length ≤ 16) {S : ℝ} (hS : S = (V.map (fun v => v * v)).sum) (h1 : (2 : ℝ) ^ (-900 : Int) ≤ S) (h2 : S ≤ (2 : ℝ) ^ (900 : Int)) :
    (scalar xs xs).Finite ∧ |(scalar xs xs).real - S| ≤ 1 / 2 ^ 45 * S := by
  have hS0 : 0 < S := lt_of_lt_of_le (by positivity) h1
  have hsq : ∀ {v : ℝ}, v ∈ V → v * v ≤ S := fun hv => hS ▸ square_le_sum hv
  -- the sum of the squares
  have hzip : List.Forall₂ (fun x X => x.Finite ∧ |x.real - X| ≤ 5 * (1 / 2 ^ 53) * S) (List.zipWith Num.mul xs xs) (V.map (fun v => v * v)) := by
    have : ∀ {l : List Dbl} {L : List ℝ}, (∀ v ∈ L, v ∈ V) → List.Forall₂ (fun x v => x.Finite ∧ |x.real - v| ≤ 1 / 2 ^ 53 * |v|) l L →
        List.Forall₂ (fun x X => x.Finite ∧ |x.real - X| ≤ 5 * (1 / 2 ^ 53) * S) (List.zipWith Num.mul l l) (L.map (fun v => v * v)) := by
      intro l L hL hl
      induction hl with
      | nil => simp
      | cons hx _ ih =>
        exact .cons (square_near hx.1 hx.2 (hsq (hL _ (by simp))) h1 h2) (ih fun v hv => hL v (by simp [hv]))
    exact this (fun _ h => h) h
  have hlen2 : (List.zipWith Num.mul xs xs).length ≤ 16 := by
    have := hzip.length_eq
    rw [List.length_map] at this
    omega
  have hlen3 : ((List.zipWith Num.mul xs xs).length : ℝ) ≤ 16 := by exact_mod_cast hlen2
  have habs : ((V.map (fun v => v * v)).map (fun x => |x|)).sum = S := by
    rw [hS]
    congr 1
    rw [List.map_map]
    refine List.map_congr_left fun v _ => ?_
    exact abs_of_nonneg (mul_self_nonneg v)
  have hbig : S + S ≤ (2 : ℝ) ^ (1000 : Int) := by
    have : (2 : ℝ) * (2 : ℝ) ^ (900 : Int) = (2 : ℝ) ^ (901 : Int) := by
      rw [show (901 : Int) = 1 + 900 by norm_num, zpow_add₀ (by norm_num), zpow_one]
    have h3 : (2 : ℝ) ^ (901 : Int) ≤ (2 : ℝ) ^ (1000 : Int) := zpow_le_zpow_right₀ (by norm_num) (by norm_num)
    rw [← two_mul]
    exact (mul_le_mul_of_nonneg_left h2 (by norm_num)).trans (this.le.trans h3)
  have hall : ((List.zipWith Num.mul xs xs).length : ℝ) * (5 * (1 / 2 ^ 53) * S + 1 / 2 ^ 52 * S) ≤ 1 / 2 ^ 45 * S := by
    calc _ ≤ 16 * (5 * (1 / 2 ^ 53) * S + 1 / 2 ^ 52 * S) := mul_le_mul_of_nonneg_right hlen3 (by positivity)
      _ = (7 / 2 ^ 49) * S := by ring
      _ ≤ _ := mul_le_mul_of_nonneg_right (by norm_num) hS0.le
  have hsmall : 1 / 2 ^ 45 * S ≤ 1 * S := mul_le_mul_of_nonneg_right (by norm_num) hS0.le
  obtain ⟨s1, s2⟩ := sum_near (δ := 5 * (1 / 2 ^ 53) * S) (B := S) (by positivity) hbig hzip real_ofNat_zero.1 (T := 0) (ε := 0)
    (by rw [real_ofNat_zero.2]; simp) (by rw [habs]; simp) (by linarith)
  rw [_root_.zero_add, _root_.zero_add, ← hS] at s2
  exact ⟨s1, s2.trans hall⟩

/-- unit vectors -/
theorem unitList_near {xs : List Dbl} {V : List ℝ} (h : List.Forall₂ (fun x v => x.Finite ∧ |x.real - v| ≤ 1 / 2 ^ 53 * |v|) xs V)
    (hlen : V.length ≤ 16) {S : ℝ} (hS : S = (V.map (fun v => v * v)).sum) (h1 : (2 : ℝ) ^ (-900 : Int) ≤ S) (h2 : S ≤ (2 : ℝ) ^ (900 : Int)) :
    List.Forall₂ (fun w X => (w.Finite ∧ |w.real - X| ≤ 1 / 2 ^ 42) ∧ |X| ≤ 1)
      (xs.map (fun x => Num.mul x (Num.div (Num.ofNat 1) (Num.sqrt (scalar xs xs))))) (V.map (fun v => v * (1 / √S))) := by
  have hS0 : 0 < S := lt_of_lt_of_le (by positivity) h1
  have hm := forall₂_mem h
  have hsq : ∀ {v : ℝ}, v ∈ V → v * v ≤ S := fun hv => hS ▸ square_le_sum hv
  obtain ⟨s1, s3⟩ := scalarSelf_near h hlen hS h1 h2
  -- the factor and the coordinates
  obtain ⟨i1, i2⟩ := inverse_near (s := scalar xs xs) s1 s3 h1 h2
  generalize Num.div (Num.ofNat 1) (Num.sqrt (scalar xs xs)) = i at i1 i2
  have hN0 : 0 < √S := Real.sqrt_pos.2 hS0
  rw [List.forall₂_map_left_iff, List.forall₂_map_right_iff]
  refine hm.imp fun x v hx => ?_
  have hb : |v| * (1 / √S) ≤ 1 := by
    rw [mul_one_div, div_le_one hN0]
    exact Real.abs_le_sqrt (by rw [sq]; exact hsq hx.2)
  refine ⟨unit_near hx.1.1 i1 hx.1.2 i2 (by positivity) hb, ?_⟩
  rw [abs_mul, abs_of_pos (show 0 < 1 / √S by positivity)]
  exact hb

/-- scalar products of unit vectors -/
theorem scalar_near {l m : List Dbl} {L M : List ℝ}
    (h1 : List.Forall₂ (fun w X => (w.Finite ∧ |w.real - X| ≤ 1 / 2 ^ 42) ∧ |X| ≤ 1) l L)
    (h2 : List.Forall₂ (fun w X => (w.Finite ∧ |w.real - X| ≤ 1 / 2 ^ 42) ∧ |X| ≤ 1) m M) (hlen : L.length ≤ 16) :
    (scalar l m).Finite ∧ |(scalar l m).real - (List.zipWith (fun x y => x * y) L M).sum| ≤ 1 / 2 ^ 35 := by
  have hz := zip_near (Q := fun w X => (w.Finite ∧ |w.real - X| ≤ 1 / 2 ^ 40) ∧ |X| ≤ 1)
    (fun x X y Y hx hy => ⟨term_near hx.1.1 hy.1.1 hx.1.2 hy.1.2 hx.2 hy.2, by
      rw [abs_mul]; exact mul_le_one₀ hx.2 (abs_nonneg _) hy.2⟩) h1 h2
  have hlen2 : (List.zipWith Num.mul l m).length ≤ 16 := by
    have := h1.length_eq
    rw [List.length_zipWith]
    omega
  have hlen3 : ((List.zipWith Num.mul l m).length : ℝ) ≤ 16 := by exact_mod_cast hlen2
  have hsum : ∀ {k : List Dbl} {K : List ℝ}, List.Forall₂ (fun w X => (w.Finite ∧ |w.real - X| ≤ 1 / 2 ^ 40) ∧ |X| ≤ 1) k K →
      (K.map (fun x => |x|)).sum ≤ k.length := by
    intro k K h
    induction h with
    | nil => simp
    | cons hx _ ih =>
      rw [List.map_cons, List.sum_cons, List.length_cons]
      push_cast
      linarith [hx.2]
  have hbig : (16 + 16 : ℝ) ≤ (2 : ℝ) ^ (1000 : Int) := by
    have : (2 : ℝ) ^ (5 : Int) ≤ (2 : ℝ) ^ (1000 : Int) := zpow_le_zpow_right₀ (by norm_num) (by norm_num)
    refine le_trans ?_ this
    norm_num
  have hall : ((List.zipWith Num.mul l m).length : ℝ) * (1 / 2 ^ 40 + 1 / 2 ^ 52 * 16) ≤ 16 * (1 / 2 ^ 40 + 1 / 2 ^ 52 * 16) :=
    mul_le_mul_of_nonneg_right hlen3 (by positivity)
  obtain ⟨s1, s2⟩ := sum_near (δ := 1 / 2 ^ 40) (B := 16) (by positivity) hbig (hz.imp fun _ _ h => h.1) real_ofNat_zero.1 (T := 0) (ε := 0)
    (by rw [real_ofNat_zero.2]; simp) (by rw [abs_zero, _root_.zero_add]; exact (hsum hz).trans hlen3) (by
      rw [_root_.zero_add]
      refine hall.trans ?_
      norm_num)
  refine ⟨s1, ?_⟩
  rw [_root_.zero_add, _root_.zero_add] at s2
  refine s2.trans (hall.trans ?_)
  norm_num

/-- the limit of the test -/
theorem limit_real : 9396926207859084 / 10 ^ 16 - 1 / 2 ^ 50 ≤ (Num.cdev : Dbl).real := by
  have hf : (roundInt 9396926207859084 (10 ^ 16) 0).Finite := by decide +kernel
  have h2 := roundInt_error_any (n := 9396926207859084) (d := 10 ^ 16) (e := 0) (by norm_num) hf
  have h3 : (9396926207859084 / 10 ^ 16 - 1 / 2 ^ 50 : ℚ) ≤ (roundInt 9396926207859084 (10 ^ 16) 0).value := by
    have ht : (2 : ℚ) ^ (-1075 : Int) ≤ 1 / 2 ^ 53 := by
      rw [show (1 / 2 ^ 53 : ℚ) = (2 : ℚ) ^ (-53 : Int) by norm_num]
      exact zpow_le_zpow_right₀ (by norm_num) (by norm_num)
    have h4 := (abs_le.1 h2).1
    generalize (2 : ℚ) ^ (-1075 : Int) = t at h4 ht
    generalize (roundInt 9396926207859084 (10 ^ 16) 0).value = w at h4 ⊢
    norm_num at h4 ⊢
    linarith
  rw [← Rat.cast_le (K := ℝ)] at h3
  push_cast at h3
  exact h3

end Dbl

/-- a vector that is neither very short nor very long -/
def Moderate {D : Nat} (x : EuclideanSpace ℝ (Fin D)) : Prop := (2 : ℝ) ^ (-450 : Int) ≤ ‖x‖ ∧ ‖x‖ ≤ (2 : ℝ) ^ (450 : Int)

/-- the vector between two points -/
theorem vecFrom_near {D : Nat} {p q : List Dbl} (hp : p.length = D) (hq : q.length = D)
    (fp : ∀ x ∈ p, x.Finite) (fq : ∀ x ∈ q, x.Finite) (hm : Moderate (pointOfDbl D q - pointOfDbl D p)) :
    ∃ V : List ℝ, V = @vecFrom ℝ (realNum 0 0) (p.map Dbl.real) (q.map Dbl.real) ∧ V.length = D ∧
      @scalar ℝ (realNum 0 0) V V = ‖pointOfDbl D q - pointOfDbl D p‖ ^ 2 ∧
      ‖pointOfDbl D q - pointOfDbl D p‖ ^ 2 = (V.map (fun v => v * v)).sum ∧
      List.Forall₂ (fun x v => x.Finite ∧ |x.real - v| ≤ 1 / 2 ^ 53 * |v|) (vecFrom p q) V := by
  have hp' : (p.map Dbl.real).length = D := by simpa using hp
  have hq' : (q.map Dbl.real).length = D := by simpa using hq
  have hv : (@vecFrom ℝ (realNum 0 0) (p.map Dbl.real) (q.map Dbl.real)).length = D := by
    let _ := realNum 0 0
    exact turnVec_length hp' hq'
  have e2 : @scalar ℝ (realNum 0 0) (@vecFrom ℝ (realNum 0 0) (p.map Dbl.real) (q.map Dbl.real)) (@vecFrom ℝ (realNum 0 0) (p.map Dbl.real) (q.map Dbl.real)) =
      ‖pointOfDbl D q - pointOfDbl D p‖ ^ 2 := by
    let _ := realNum 0 0
    have e1 : coordsOf D (vecFrom (p.map Dbl.real) (q.map Dbl.real)) = fun j => coordsOf D (q.map Dbl.real) j - coordsOf D (p.map Dbl.real) j :=
      coordsOf_zip hp' hq'
    rw [scalar_inner hv hv, e1, EuclideanSpace.norm_sq_eq]
    simp [pointOfDbl, pointOf, sq]
  have e3 : @scalar ℝ (realNum 0 0) (@vecFrom ℝ (realNum 0 0) (p.map Dbl.real) (q.map Dbl.real)) (@vecFrom ℝ (realNum 0 0) (p.map Dbl.real) (q.map Dbl.real)) =
      ((@vecFrom ℝ (realNum 0 0) (p.map Dbl.real) (q.map Dbl.real)).map (fun v => v * v)).sum := by
    rw [← Dbl.zip_self]
    exact Dbl.sumUp_real _
  have hS := e2.symm.trans e3
  refine ⟨_, rfl, hv, e2, hS, Dbl.vec_near (lo := 0) (hi := 0) fp fq ?_⟩
  intro v hv
  have := Dbl.square_le_sum hv
  rw [← hS] at this
  have h3 : v ^ 2 ≤ ((2 : ℝ) ^ (450 : Int)) ^ 2 := by
    rw [sq]
    exact this.trans (pow_le_pow_left₀ (norm_nonneg _) hm.2 2)
  have h4 := abs_le_of_sq_le_sq h3 (by positivity)
  exact h4.trans (zpow_le_zpow_right₀ (by norm_num) (by norm_num))

theorem Moderate.sq {D : Nat} {x : EuclideanSpace ℝ (Fin D)} (hm : Moderate x) :
    (2 : ℝ) ^ (-900 : Int) ≤ ‖x‖ ^ 2 ∧ ‖x‖ ^ 2 ≤ (2 : ℝ) ^ (900 : Int) := by
  constructor
  · have := pow_le_pow_left₀ (by positivity) hm.1 2
    rw [← zpow_natCast, ← zpow_mul] at this
    exact this
  · have := pow_le_pow_left₀ (norm_nonneg _) hm.2 2
    rw [← zpow_natCast ((2 : ℝ) ^ (450 : Int)), ← zpow_mul] at this
    exact this

theorem unitFrom_near {D : Nat} (hD : D ≤ 16) {p q : List Dbl} (hp : p.length = D) (hq : q.length = D)
    (fp : ∀ x ∈ p, x.Finite) (fq : ∀ x ∈ q, x.Finite) (hm : Moderate (pointOfDbl D q - pointOfDbl D p)) :
    List.Forall₂ (fun w X => (w.Finite ∧ |w.real - X| ≤ 1 / 2 ^ 42) ∧ |X| ≤ 1) (unitFrom p q)
      (@unitFrom ℝ (realNum 0 0) (p.map Dbl.real) (q.map Dbl.real)) := by
  obtain ⟨V, hV, hv, e2, hS, hvn⟩ := vecFrom_near hp hq fp fq hm
  have := Dbl.unitList_near hvn (by omega) hS hm.sq.1 hm.sq.2
  rw [← e2, hV] at this
  have e4 : (@unitFrom ℝ (realNum 0 0) (p.map Dbl.real) (q.map Dbl.real)) = (@vecFrom ℝ (realNum 0 0) (p.map Dbl.real) (q.map Dbl.real)).map
      (fun v => v * (1 / √(@scalar ℝ (realNum 0 0) (@vecFrom ℝ (realNum 0 0) (p.map Dbl.real) (q.map Dbl.real)) (@vecFrom ℝ (realNum 0 0) (p.map Dbl.real) (q.map Dbl.real))))) := by
    show List.map (fun x => x * (((1 : Nat) : ℝ) / _)) _ = _
    rw [Nat.cast_one]
    rfl
  rw [e4]
  exact this

/-- the computed cosine of the angle between two steps -/
theorem cosine_near {D : Nat} (hD : D ≤ 16) {p q r s : List Dbl} (hp : p.length = D) (hq : q.length = D) (hr : r.length = D) (hs : s.length = D)
    (fp : ∀ x ∈ p, x.Finite) (fq : ∀ x ∈ q, x.Finite) (fr : ∀ x ∈ r, x.Finite) (fs : ∀ x ∈ s, x.Finite)
    (h1 : Moderate (pointOfDbl D q - pointOfDbl D p)) (h2 : Moderate (pointOfDbl D s - pointOfDbl D r)) :
    |(scalar (unitFrom p q) (unitFrom r s)).real - inner ℝ (pointOfDbl D q - pointOfDbl D p) (pointOfDbl D s - pointOfDbl D r) /
      (‖pointOfDbl D q - pointOfDbl D p‖ * ‖pointOfDbl D s - pointOfDbl D r‖)| ≤ 1 / 2 ^ 35 ∧
    |(scalar ((unitFrom p q).map Num.neg) (unitFrom r s)).real + inner ℝ (pointOfDbl D q - pointOfDbl D p) (pointOfDbl D s - pointOfDbl D r) /
      (‖pointOfDbl D q - pointOfDbl D p‖ * ‖pointOfDbl D s - pointOfDbl D r‖)| ≤ 1 / 2 ^ 35 := by
  have k1 := unitFrom_near hD hp hq fp fq h1
  have k2 := unitFrom_near hD hr hs fr fs h2
  have lp : (p.map Dbl.real).length = D := by simpa using hp
  have lq : (q.map Dbl.real).length = D := by simpa using hq
  have lr : (r.map Dbl.real).length = D := by simpa using hr
  have ls : (s.map Dbl.real).length = D := by simpa using hs
  have hl1 : (@unitFrom ℝ (realNum 0 0) (p.map Dbl.real) (q.map Dbl.real)).length = D := by
    let _ := realNum 0 0
    exact turnUnit_length lp lq
  have hl2 : (@unitFrom ℝ (realNum 0 0) (r.map Dbl.real) (s.map Dbl.real)).length = D := by
    let _ := realNum 0 0
    exact turnUnit_length lr ls
  have e := scalar_units (lo := 0) (hi := 0) lp lq lr ls
  have en := scalar_neg (lo := 0) (hi := 0) hl1 hl2
  constructor
  · have h3 := (Dbl.scalar_near k1 k2 (by omega)).2
    rw [← Dbl.sumUp_real (lo := 0) (hi := 0)] at h3
    refine le_trans (le_of_eq ?_) h3
    congr 2
    exact e.symm
  · have k1' : List.Forall₂ (fun w X => (w.Finite ∧ |w.real - X| ≤ 1 / 2 ^ 42) ∧ |X| ≤ 1) ((unitFrom p q).map Num.neg)
        ((@unitFrom ℝ (realNum 0 0) (p.map Dbl.real) (q.map Dbl.real)).map (@Num.neg ℝ (realNum 0 0))) := by
      rw [List.forall₂_map_left_iff, List.forall₂_map_right_iff]
      refine k1.imp fun w X h => ⟨⟨Dbl.finite_neg.2 h.1.1, ?_⟩, ?_⟩
      · show |(Dbl.neg w).real - -X| ≤ _
        have : (Dbl.neg w).real = -w.real := by
          unfold Dbl.real
          rw [Dbl.value_neg]
          push_cast
          rfl
        rw [this, ← abs_neg, show -(-w.real - -X) = w.real - X by ring]
        exact h.1.2
      · show |-X| ≤ 1
        rw [abs_neg]
        exact h.2
    have h3 := (Dbl.scalar_near k1' k2 (by rw [List.length_map]; omega)).2
    rw [← Dbl.sumUp_real (lo := 0) (hi := 0)] at h3
    refine le_trans (le_of_eq ?_) h3
    rw [← sub_neg_eq_add]
    congr 2
    exact (congrArg Neg.neg e.symm).trans en.symm

/-- vectors with a cosine close to minus one -/
theorem angle_of_cos_near {D : Nat} {x y : EuclideanSpace ℝ (Fin D)}
    (h : 9396926207859084 / 10 ^ 16 - 1 / 2 ^ 34 ≤ -(inner ℝ x y / (‖x‖ * ‖y‖))) :
    8 * Real.pi / 9 - 1 / 2 ^ 30 ≤ InnerProductGeometry.angle x y := by
  unfold InnerProductGeometry.angle
  have hpi := Real.two_le_pi
  have hpi4 := Real.pi_le_four
  have h1 : inner ℝ x y / (‖x‖ * ‖y‖) ≤ Real.cos (8 * Real.pi / 9 - 1 / 2 ^ 30) := by
    rw [show 8 * Real.pi / 9 - 1 / 2 ^ 30 = Real.pi - (Real.pi / 9 + 1 / 2 ^ 30) by ring, Real.cos_pi_sub, Real.cos_add]
    have s1 : 2 / Real.pi * (Real.pi / 9) ≤ Real.sin (Real.pi / 9) := Real.mul_le_sin (by positivity) (by linarith)
    have s2 : 2 / Real.pi * (1 / 2 ^ 30) ≤ Real.sin (1 / 2 ^ 30) := Real.mul_le_sin (by positivity) (by
      have : (1 / 2 ^ 30 : ℝ) ≤ 1 := by norm_num
      linarith)
    have s3 : (1 / 2 : ℝ) ≤ 2 / Real.pi := by
      rw [div_le_div_iff₀ (by norm_num) (by positivity)]
      linarith
    have s4 : 2 / Real.pi * (Real.pi / 9) = 2 / 9 := by field_simp
    rw [s4] at s1
    have s5 : (1 / 2 : ℝ) * (1 / 2 ^ 30) ≤ Real.sin (1 / 2 ^ 30) := le_trans (mul_le_mul_of_nonneg_right s3 (by positivity)) s2
    have s6 : (2 / 9 : ℝ) * (1 / 2 * (1 / 2 ^ 30)) ≤ Real.sin (Real.pi / 9) * Real.sin (1 / 2 ^ 30) :=
      mul_le_mul s1 s5 (by positivity) (by linarith)
    have c0 : 0 ≤ Real.cos (Real.pi / 9) := Real.cos_nonneg_of_neg_pi_div_two_le_of_le (by linarith) (by linarith)
    have c1 : Real.cos (Real.pi / 9) * Real.cos (1 / 2 ^ 30) ≤ Real.cos (Real.pi / 9) * 1 :=
      mul_le_mul_of_nonneg_left (Real.cos_le_one _) c0
    have := cos_limit
    have h9 : (1 / 2 ^ 34 : ℝ) ≤ 2 / 9 * (1 / 2 * (1 / 2 ^ 30)) := by norm_num
    linarith
  have h2 := Real.arccos_le_arccos h1
  rwa [Real.arccos_cos (by
    have : (1 / 2 ^ 30 : ℝ) ≤ 1 := by norm_num
    linarith) (by
    have : (0 : ℝ) ≤ 1 / 2 ^ 30 := by norm_num
    linarith)] at h2

/-- what the test means for the centers -/
theorem straight_angle_double {D : Nat} (hD : D ≤ 16) {g : Graph Dbl} (hl : ∀ c ∈ g.centers, c.length = D ∧ ∀ x ∈ c, x.Finite)
    {u v w : Nat} (hmod : ∀ i j ci cj, (i = u ∨ i = w) → j = v → g.centers[i]? = some ci → g.centers[j]? = some cj →
      Moderate (pointOfDbl D ci - pointOfDbl D cj))
    (h : StraightOn g u v w) : ∃ cu cv cw, g.centers[u]? = some cu ∧ g.centers[v]? = some cv ∧ g.centers[w]? = some cw ∧
      8 * Real.pi / 9 - 1 / 2 ^ 30 ≤ EuclideanGeometry.angle (pointOfDbl D cu) (pointOfDbl D cv) (pointOfDbl D cw) := by
  have key : ∀ {c : Dbl}, Num.lt (Num.ofNat 0) c = true → Num.lt (Num.abs c) Num.cdev = false → 9396926207859084 / 10 ^ 16 - 1 / 2 ^ 50 ≤ c.real := by
    intro c h1 h2
    have h1' : (Num.ofNat 0 : Dbl).code < c.code := of_decide_eq_true h1
    have e0 : (Num.ofNat 0 : Dbl).code = 0 := by decide
    rw [e0] at h1'
    have h2' : ¬ (c.code.natAbs : Int) < (Num.cdev : Dbl).code := of_decide_eq_false h2
    have h3 : (Num.cdev : Dbl).value ≤ c.value := by
      rw [Dbl.value_le]
      omega
    refine Dbl.limit_real.trans ?_
    unfold Dbl.real
    exact_mod_cast h3
  have inn : ∀ x y z : EuclideanSpace ℝ (Fin D), inner ℝ (x - y) (y - z) / (‖x - y‖ * ‖y - z‖) = -(inner ℝ (x - y) (z - y) / (‖x - y‖ * ‖z - y‖)) := by
    intro x y z
    rw [← neg_sub z y, inner_neg_right, norm_neg, neg_div]
  have flip : ∀ {x y : EuclideanSpace ℝ (Fin D)}, Moderate (x - y) → Moderate (y - x) := by
    intro x y h
    unfold Moderate at *
    rwa [norm_sub_rev]
  rcases h with ⟨d, ⟨cu, cv, h1, h2, rfl⟩, c, d', ⟨cv', cw, h3, h4, rfl⟩, h5, h6, h7⟩ |
    ⟨d, ⟨cw, cv, h4, h2, rfl⟩, c, d', ⟨cv', cu, h3, h1, rfl⟩, h5, h6, h7⟩ |
    ⟨d, ⟨cv, cw, h2, h4, rfl⟩, c, d', ⟨cv', cu, h3, h1, rfl⟩, h5, h6, h7⟩
  all_goals
    rw [h2] at h3
    cases h3
    refine ⟨cu, cv, cw, h1, h2, h4, ?_⟩
    have l1 := hl _ (List.mem_of_getElem? h1)
    have l2 := hl _ (List.mem_of_getElem? h2)
    have l4 := hl _ (List.mem_of_getElem? h4)
    have m1 := hmod u v cu cv (Or.inl rfl) rfl h1 h2
    have m2 := hmod w v cw cv (Or.inr rfl) rfl h4 h2
    have hk := key h6 h7
    have hsm : (1 / 2 ^ 50 + 1 / 2 ^ 35 : ℝ) ≤ 1 / 2 ^ 34 := by norm_num
  · have hc := (cosine_near hD l2.1 l1.1 l4.1 l2.1 l2.2 l1.2 l4.2 l2.2 m1 (flip m2)).1
    rw [← h5, inn] at hc
    have := (abs_le.1 hc).2
    refine angle_of_cos_near ?_
    have : 9396926207859084 / 10 ^ 16 - 1 / 2 ^ 34 ≤
      -(inner ℝ (pointOfDbl D cu - pointOfDbl D cv) (pointOfDbl D cw - pointOfDbl D cv) / (‖pointOfDbl D cu - pointOfDbl D cv‖ * ‖pointOfDbl D cw - pointOfDbl D cv‖)) := by linarith
    exact this
  · have hc := (cosine_near hD l2.1 l4.1 l1.1 l2.1 l2.2 l4.2 l1.2 l2.2 m2 (flip m1)).1
    rw [← h5, inn] at hc
    rw [EuclideanGeometry.angle_comm]
    have := (abs_le.1 hc).2
    refine angle_of_cos_near ?_
    have : 9396926207859084 / 10 ^ 16 - 1 / 2 ^ 34 ≤
      -(inner ℝ (pointOfDbl D cw - pointOfDbl D cv) (pointOfDbl D cu - pointOfDbl D cv) / (‖pointOfDbl D cw - pointOfDbl D cv‖ * ‖pointOfDbl D cu - pointOfDbl D cv‖)) := by linarith
    exact this
  · have hc := (cosine_near hD l4.1 l2.1 l1.1 l2.1 l4.2 l2.2 l1.2 l2.2 (flip m2) (flip m1)).2
    rw [← h5] at hc
    have h8 := (abs_le.1 hc).2
    refine angle_of_cos_near ?_
    rw [← neg_sub (pointOfDbl D cu), ← neg_sub (pointOfDbl D cw), inner_neg_neg, norm_neg, norm_neg, real_inner_comm, mul_comm ‖_‖] at h8
    have : 9396926207859084 / 10 ^ 16 - 1 / 2 ^ 34 ≤
      -(inner ℝ (pointOfDbl D cu - pointOfDbl D cv) (pointOfDbl D cw - pointOfDbl D cv) / (‖pointOfDbl D cu - pointOfDbl D cv‖ * ‖pointOfDbl D cw - pointOfDbl D cv‖)) := by linarith
    exact this

/-- **C84** (double precision) If the direction is to be kept, and the centers of neighbours
are neither extremely close nor extremely far, the angle at the middle one of any three
consecutive cells of a line is at least 160 degrees, up to less than a billionth of a radian. -/
theorem C84_double {P : Platform} {a : Args Dbl} {o : Outs} {n D : Nat} (hm : ValidMesh a n)
    (hb : BuildsLines a n) (hns : NoSelfLoop a.rowPtr a.colInd) (hp : NonnegCouplings (graphOf a) (meantCoupling a))
    (hf : a.forceDir = true) (hD : D ≤ 16) (hc : ∀ c ∈ a.centers, c.length = D ∧ ∀ x ∈ c, x.Finite)
    (hmod : ∀ i j ci cj, Adj a.rowPtr a.colInd i j → a.centers[i]? = some ci → a.centers[j]? = some cj →
      Moderate (pointOfDbl D ci - pointOfDbl D cj)) :
    ∃ fls, fineLines P a o = .ok fls ∧ ∀ l ∈ fls, ∀ k u v w : Nat,
      l[k]? = some u → l[k + 1]? = some v → l[k + 2]? = some w →
      ∃ cu cv cw, a.centers[u]? = some cu ∧ a.centers[v]? = some cv ∧ a.centers[w]? = some cw ∧
        8 * Real.pi / 9 - 1 / 2 ^ 30 ≤ EuclideanGeometry.angle (pointOfDbl D cu) (pointOfDbl D cv) (pointOfDbl D cw) := by
  obtain ⟨fls, h1, h2⟩ := C84_tested dbl_lawful (P := P) (o := o) hm hb hns hp hf
  obtain ⟨fls', h3, _, _, h4, _⟩ := fineLines_build (P := P) (o := o) hm hb
  rw [h1] at h3
  cases h3
  refine ⟨fls, h1, fun l hl k u v w hu hv hw => straight_angle_double hD (g := graphOf a) hc ?_ (h2 l hl k u v w hu hv hw)⟩
  rintro i j ci cj (rfl | rfl) rfl hi hj
  · exact hmod _ _ ci cj (h4 l hl k _ _ hu hv) hi hj
  · exact hmod _ _ ci cj (hm.sym _ _ (h4 l hl (k + 1) _ _ hv hw)) hi hj

/-! ### Concrete case -/

/-- three cells in a row -/
def exColinear : Args Dbl :=
  { exCorner true with centers := [[Dbl.dec 0 0, Dbl.dec 0 0], [Dbl.dec 1 0, Dbl.dec 0 0], [Dbl.dec 2 0, Dbl.dec 0 0]] }

theorem exColinear_crs : ValidCRS 3 exColinear.rowPtr exColinear.colInd := checkCRS_sound (by decide)

theorem exColinear_valid : ValidMesh exColinear 3 :=
  ⟨by decide, exColinear_crs, checkSym_sound exColinear_crs (by decide), Or.inr dbl_lawful, rfl, rfl, rfl, rfl, rfl, 2, by decide⟩

theorem exColinear_lines : BuildsLines exColinear 3 where
  on := rfl
  build := rfl
  compliant := by decide
  isolated _ _ i hi := by
    have : i = 0 ∨ i = 1 ∨ i = 2 := by simpa [exColinear, exCorner] using hi
    rcases this with rfl | rfl | rfl
    · exact ⟨1, 0, 1, 0, rfl, rfl, by omega, by omega, rfl⟩
    · exact ⟨0, 1, 3, 1, rfl, rfl, by omega, by omega, rfl⟩
    · exact ⟨1, 3, 4, 3, rfl, rfl, by omega, by omega, rfl⟩

theorem exColinear_nonneg : NonnegCouplings (graphOf exColinear) (meantCoupling exColinear) := by
  rintro i n w ⟨k, _, hw⟩
  have h : ∀ w ∈ exColinear.values, Num.lt w (Num.ofNat 0) = false := by decide +kernel
  exact h w (List.mem_of_getElem? hw)

theorem dec_real {n : Nat} (hn : n ≤ 2 ^ 53) : (Dbl.dec n 0).real = n := by
  unfold Dbl.real
  show ((Dbl.roundInt n 1 0).value : ℝ) = n
  rw [(Dbl.ofNat_exact hn).2]
  norm_num

theorem exColinear_moderate (i j : Nat) (ci cj : List Dbl) (h : Adj exColinear.rowPtr exColinear.colInd i j)
    (hi : exColinear.centers[i]? = some ci) (hj : exColinear.centers[j]? = some cj) : Moderate (pointOfDbl 2 ci - pointOfDbl 2 cj) := by
  have m1 : ∀ x : EuclideanSpace ℝ (Fin 2), ‖x‖ = 1 → Moderate x := by
    intro x hx
    refine ⟨?_, ?_⟩ <;> rw [hx]
    · exact le_trans (zpow_le_zpow_right₀ (by norm_num) (by norm_num : (-450 : Int) ≤ 0)) (by norm_num)
    · exact le_trans (by norm_num) (zpow_le_zpow_right₀ (by norm_num : (1 : ℝ) ≤ 2) (by norm_num : (0 : Int) ≤ 450))
  have r0 : (Dbl.dec 0 0).real = 0 := by have := dec_real (n := 0) (by norm_num); simpa using this
  have r1 : (Dbl.dec 1 0).real = 1 := by have := dec_real (n := 1) (by norm_num); simpa using this
  have r2 : (Dbl.dec 2 0).real = 2 := by have := dec_real (n := 2) (by norm_num); simpa using this
  have hij : (i = 0 ∧ j = 1) ∨ (i = 1 ∧ j = 0) ∨ (i = 1 ∧ j = 2) ∨ (i = 2 ∧ j = 1) := by
    obtain ⟨b, e, k, hb, he, h1, h2, hk⟩ := h
    have hi' : i < 3 := by
      have := (List.getElem?_eq_some_iff.1 hi).1
      simpa [exColinear] using this
    rcases (by omega : i = 0 ∨ i = 1 ∨ i = 2) with rfl | rfl | rfl
    · cases hb; cases he
      obtain rfl : k = 0 := by omega
      cases hk; simp
    · cases hb; cases he
      rcases (by omega : k = 1 ∨ k = 2) with rfl | rfl <;> cases hk <;> simp
    · cases hb; cases he
      obtain rfl : k = 3 := by omega
      cases hk; simp
  apply m1
  rw [EuclideanSpace.norm_eq]
  rcases hij with ⟨rfl, rfl⟩ | ⟨rfl, rfl⟩ | ⟨rfl, rfl⟩ | ⟨rfl, rfl⟩ <;> cases hi <;> cases hj <;>
    norm_num [pointOfDbl, pointOf, coordsOf, r0, r1, r2, Fin.sum_univ_two]

example (P : Platform) (o : Outs) := C84_double (P := P) (o := o) exColinear_valid exColinear_lines
  (checkNoLoop_sound exColinear_crs (by decide)) exColinear_nonneg rfl (D := 2) (by omega)
  (show ∀ c ∈ exColinear.centers, c.length = 2 ∧ ∀ x ∈ c, x.Finite by decide) exColinear_moderate

/-- the line has three cells -/
example : fineLines exPlatform exColinear ⟨[], [], []⟩ = .ok [[0, 1, 2]] := by decide +kernel

end CoMMA
