import Verif.Lemmas.WholeLines
import Verif.Props.StraightDouble
/-! # Lines that keep their direction, in doubles and in real numbers -/

set_option linter.unusedSectionVars false
set_option linter.deprecated false

namespace CoMMA

/-! ## Two graphs in which steps go on straight in the same places -/

section Alike

variable {W W' : Type} [Num W] [Num W'] {g : Graph W} {g' : Graph W'} {coupling : Coupling} {δ : Nat → List W → List W' → Prop}

/-- steps between the same cells are ahead of each other, and a step is continued by one neighbour at most; `δ i` relates
the directions in which lines reach the cell `i` -/
structure DirectionsAlike (g : Graph W) (g' : Graph W') (δ : Nat → List W → List W' → Prop) : Prop where
  rows : g'.rowPtr = g.rowPtr
  cols : g'.colInd = g.colInd
  step : ∀ i n d, Adj g.rowPtr g.colInd i n → StepDir g i n d → ∃ d', StepDir g' i n d' ∧ δ n d d' ∧ δ i (d.map Num.neg) (d'.map Num.neg)
  ahead : ∀ d d' i n c, δ i d d' → Adj g.rowPtr g.colInd i n → Ahead g d i n c → ∃ c', Ahead g' d' i n c'
  back : ∀ d d' i n c, δ i d d' → Adj g.rowPtr g.colInd i n → Ahead g' d' i n c → ∃ c', Ahead g d i n c'
  single : ∀ d d' i n m c e, δ i d d' → Adj g.rowPtr g.colInd i n → Adj g.rowPtr g.colInd i m →
    Ahead g' d' i n c → Ahead g' d' i m e → n = m

/-- the same couplings are strong -/
def StrongAlike (g : Graph W) (g' : Graph W') (coupling : Coupling) : Prop :=
  ∀ i n, (∃ w, StrongCoupling g coupling i n w) ↔ ∃ w, StrongCoupling g' coupling i n w

theorem StrongCoupling.adj {i n : Nat} {w : W} (h : StrongCoupling g coupling i n w) : Adj g.rowPtr g.colInd i n := by
  obtain ⟨⟨k, ⟨b, e, h1, h2, h3, h4, h5⟩, _⟩, _⟩ := h
  exact ⟨b, e, k, h1, h2, h3, h4, h5⟩

theorem Ahead.unique {d : List W} {i n : Nat} {c e : W} (h1 : Ahead g d i n c) (h2 : Ahead g d i n e) : c = e := by
  obtain ⟨_, ⟨a1, a2, a3, a4, rfl⟩, rfl, _⟩ := h1
  obtain ⟨_, ⟨b1, b2, b3, b4, rfl⟩, rfl, _⟩ := h2
  rw [a3] at b3
  rw [a4] at b4
  cases b3
  cases b4
  rfl

variable (hc : CouplingsAlike g g' coupling) (hs : StrongAlike g g' coupling) (hd : DirectionsAlike g g' δ) (hW : LawfulLt W')

include hs hd

theorem ByDirection.over {free : Nat → Prop} {d : List W} {d' : List W'} {i n : Nat} (hdd : δ i d d') {c : W}
    (h : ByDirection g coupling free d i n c) : ∃ c', ByDirection g' coupling free d' i n c' := by
  obtain ⟨h1, ⟨w, h2⟩, h3⟩ := h
  obtain ⟨c', h4⟩ := hd.ahead _ _ _ _ _ hdd h2.adj h3
  exact ⟨c', h1, (hs i n).1 ⟨w, h2⟩, h4⟩

theorem ByDirection.back {free : Nat → Prop} {d : List W} {d' : List W'} {i n : Nat} (hdd : δ i d d') {c : W'}
    (h : ByDirection g' coupling free d' i n c) : ∃ c', ByDirection g coupling free d i n c' := by
  obtain ⟨h1, h2, h3⟩ := h
  obtain ⟨w, h2⟩ := (hs i n).2 h2
  obtain ⟨c', h4⟩ := hd.back _ _ _ _ _ hdd h2.adj h3
  exact ⟨c', h1, ⟨w, h2⟩, h4⟩

omit hs in
theorem AnyDirection.over {free : Nat → Prop} {d : List W} {d' : List W'} {i n : Nat} (hdd : δ i d d') {c : W}
    (h : AnyDirection g free d i n c) : ∃ c', AnyDirection g' free d' i n c' := by
  obtain ⟨h1, h2, h3⟩ := h
  obtain ⟨c', h4⟩ := hd.ahead _ _ _ _ _ hdd h2 h3
  exact ⟨c', h1, by rw [hd.rows, hd.cols]; exact h2, h4⟩

omit hs in
theorem AnyDirection.back {free : Nat → Prop} {d : List W} {d' : List W'} {i n : Nat} (hdd : δ i d d') {c : W'}
    (h : AnyDirection g' free d' i n c) : ∃ c', AnyDirection g free d i n c' := by
  obtain ⟨h1, h2, h3⟩ := h
  rw [hd.rows, hd.cols] at h2
  obtain ⟨c', h4⟩ := hd.back _ _ _ _ _ hdd h2 h3
  exact ⟨c', h1, h2, h4⟩

include hW

theorem ByDirection.best {free : Nat → Prop} {d : List W} {d' : List W'} {i x : Nat} (hdd : δ i d d')
    (h : BestOf (ByDirection g coupling free d i) x) : BestOf (ByDirection g' coupling free d' i) x := by
  obtain ⟨w, h1, _⟩ := h
  obtain ⟨c', h2⟩ := h1.over hs hd hdd
  refine ⟨c', h2, fun n e h3 => ?_⟩
  obtain ⟨_, ⟨u, hu⟩, a1⟩ := h2
  obtain ⟨_, ⟨v, hv⟩, a2⟩ := h3
  have ad1 := hu.adj
  have ad2 := hv.adj
  rw [hd.rows, hd.cols] at ad1 ad2
  cases hd.single _ _ _ _ _ _ _ hdd ad1 ad2 a1 a2
  cases a1.unique a2
  exact ⟨hW.irrefl _, Or.inr le_rfl⟩

omit hs in
theorem AnyDirection.best {free : Nat → Prop} {d : List W} {d' : List W'} {i x : Nat} (hdd : δ i d d')
    (h : BestOf (AnyDirection g free d i) x) : BestOf (AnyDirection g' free d' i) x := by
  obtain ⟨w, h1, _⟩ := h
  obtain ⟨c', h2⟩ := h1.over hd hdd
  refine ⟨c', h2, fun n e h3 => ?_⟩
  obtain ⟨_, ad1, a1⟩ := h2
  obtain ⟨_, ad2, a2⟩ := h3
  rw [hd.rows, hd.cols] at ad1 ad2
  cases hd.single _ _ _ _ _ _ _ hdd ad1 ad2 a1 a2
  cases a1.unique a2
  exact ⟨hW.irrefl _, Or.inr le_rfl⟩

include hc

theorem NextCell.overStraight {free : Nat → Prop} {d : Option (List W)} {d' : Option (List W')} {i : Nat} (hdd : Option.Rel (δ i) d d')
    {o : Option Nat} (hn : NextCell g coupling true free d i o) : NextCell g' coupling true free d' i o := by
  cases hn with
  | strongest h1 h2 =>
    rcases h1 with h1 | rfl
    · cases h1
    · cases hdd
      exact .strongest (Or.inr rfl) (hc.best _ _ _ h2)
  | noStrong h1 h2 =>
    rcases h1 with h1 | rfl
    · cases h1
    · cases hdd
      exact .noStrong (Or.inr rfl) (hc.none _ _ h2)
  | straight _ h1 =>
    cases hdd with
    | some h => exact .straight rfl (ByDirection.best hs hd hW h h1)
  | loose _ h1 h2 =>
    cases hdd with
    | some h =>
      refine .loose rfl (fun n w h3 => ?_) (AnyDirection.best hd hW h h2)
      obtain ⟨c, h4⟩ := ByDirection.back hs hd h h3
      exact h1 n c h4
  | noWay _ h1 h2 =>
    cases hdd with
    | some h =>
      refine .noWay rfl (fun n w h3 => ?_) (fun n w h3 => ?_)
      · obtain ⟨c, h4⟩ := ByDirection.back hs hd h h3
        exact h1 n c h4
      · obtain ⟨c, h4⟩ := AnyDirection.back hd h h3
        exact h2 n c h4

omit hc hs hd hW in
theorem NextCell.stepAdj {free : Nat → Prop} {force : Bool} {d : Option (List W)} {i x : Nat} (h : NextCell g coupling force free d i (some x)) :
    Adj g.rowPtr g.colInd i x := by
  cases h with
  | strongest _ h2 => obtain ⟨w, ⟨_, h3⟩, _⟩ := h2; exact h3.adj
  | straight _ h2 => obtain ⟨w, ⟨_, ⟨v, h3⟩, _⟩, _⟩ := h2; exact h3.adj
  | loose _ _ h2 => obtain ⟨w, ⟨_, h3, _⟩, _⟩ := h2; exact h3

theorem LineWalk.overStraight {free : Nat → Prop} {d : Option (List W)} {d' : Option (List W')} {i : Nat} (hdd : Option.Rel (δ i) d d')
    {l : List Nat} (hn : LineWalk g coupling true free d i l) : LineWalk g' coupling true free d' i l := by
  induction hn generalizing d' with
  | stop h1 => exact .stop (h1.overStraight hc hs hd hW hdd)
  | step h1 h2 _ ih =>
    obtain ⟨e', h3, h4, _⟩ := hd.step _ _ _ h1.stepAdj h2
    exact .step (h1.overStraight hc hs hd hW hdd) h3 (ih (.some h4))

theorem LineFrom.overStraight {free : Nat → Prop} {p : Nat}
    {l : List Nat} (hn : LineFrom g coupling true free p l) : LineFrom g' coupling true free p l := by
  cases hn with
  | alone h1 => exact .alone (h1.overStraight hc hs hd hW .none)
  | @both x _ _ _ h1 h2 h3 =>
    have hadj : Adj g.rowPtr g.colInd p x := by
      cases h1 with
      | step h4 _ _ => exact h4.stepAdj
    obtain ⟨e', h4, _, h5⟩ := hd.step _ _ _ hadj h2
    exact .both (h1.overStraight hc hs hd hW .none) h4 (h3.overStraight hc hs hd hW (.some h5))

theorem LinesFrom.overStraight {free : Nat → Prop} {ps : List Nat}
    {ls : List (List Nat)} (hn : LinesFrom g coupling true free ps ls) : LinesFrom g' coupling true free ps ls := by
  induction hn with
  | done => exact .done
  | taken h1 _ ih => exact .taken h1 ih
  | single h1 h2 _ ih => exact .single h1 (h2.overStraight hc hs hd hW) ih
  | line h1 h2 h3 _ ih => exact .line h1 (h2.overStraight hc hs hd hW) h3 ih

end Alike

/-! ## Whole-number points -/

open Dbl

/-- a point with whole-number coordinates -/
noncomputable def pointOfInt (D : Nat) (c : List Int) : EuclideanSpace ℝ (Fin D) := pointOf D (c.map (fun z : Int => (z : ℝ)))

theorem dblOf_real {z : Int} (h : z.natAbs ≤ 2 ^ 53) : (dblOf z).Finite ∧ (dblOf z).real = z := by
  obtain ⟨h1, h2⟩ := whole_exact (absLe h le_rfl)
  refine ⟨h1, ?_⟩
  unfold Dbl.real dblOf
  rw [h2]
  norm_cast

theorem pointOfDbl_whole {D : Nat} {c : List Int} (h : ∀ x ∈ c, x.natAbs ≤ 2 ^ 53) : pointOfDbl D (c.map dblOf) = pointOfInt D c := by
  unfold pointOfDbl pointOfInt
  rw [List.map_map]
  congr 1
  exact List.map_congr_left fun x hx => (dblOf_real (h x hx)).2

/-- the vector between two points that differ in one coordinate only -/
theorem axis_vector {D : Nat} {c d : List Int} (hc : c.length = D) (hd : d.length = D) {k : Nat} {x y : Int} (h1 : c[k]? = some x)
    (h2 : d[k]? = some y) (h3 : ∀ l : Nat, l ≠ k → c[l]? = d[l]?) :
    ∃ hk : k < D, pointOfInt D c - pointOfInt D d = EuclideanSpace.single ⟨k, hk⟩ ((x : ℝ) - y) := by
  have hk : k < D := by
    have := (List.getElem?_eq_some_iff.1 h1).1
    omega
  refine ⟨hk, ?_⟩
  ext j
  have e : ∀ e : List Int, e.length = D → (pointOfInt D e) j = ((e.getD j 0 : Int) : ℝ) := by
    intro e he
    show (e.map (fun z : Int => (z : ℝ))).getD j 0 = _
    have hj : j.1 < e.length := by rw [he]; exact j.2
    simp [hj]
  rw [PiLp.sub_apply, e c hc, e d hd, EuclideanSpace.single_apply]
  by_cases hj : j = ⟨k, hk⟩
  · subst hj
    rw [if_pos rfl]
    simp [List.getD_eq_getElem?_getD, h1, h2]
  · rw [if_neg hj]
    have : c[j.1]? = d[j.1]? := h3 j fun h => hj (Fin.ext h)
    simp [List.getD_eq_getElem?_getD, this]

/-! ## Scalar products of whole-number vectors -/

theorem point_coord {D : Nat} {e : List Int} (he : e.length = D) (j : Fin D) : (pointOfInt D e) j = ((e.getD j 0 : Int) : ℝ) := by
  show (e.map (fun z : Int => (z : ℝ))).getD j 0 = _
  have hj : j.1 < e.length := by rw [he]; exact j.2
  simp [hj]

theorem wholeDot_inner {D : Nat} {o c d : List Int} (ho : o.length = D) (hc : c.length = D) (hd : d.length = D) :
    inner ℝ (pointOfInt D c - pointOfInt D o) (pointOfInt D d - pointOfInt D o) = (wholeDot o c d : ℝ) := by
  have e : List.zipWith (fun x y => x * y) (List.zipWith (fun x y => y - x) o c) (List.zipWith (fun x y => y - x) o d) =
      List.ofFn (fun j : Fin D => (c.getD j 0 - o.getD j 0) * (d.getD j 0 - o.getD j 0)) := by
    refine List.ext_getElem (by simp [ho, hc, hd]) fun i h1 h2 => ?_
    have hi : i < D := by simpa using h2
    have a1 : i < o.length := by omega
    have a2 : i < c.length := by omega
    have a3 : i < d.length := by omega
    simp [a1, a2, a3]
  unfold wholeDot
  rw [e, List.sum_ofFn, PiLp.inner_apply]
  push_cast
  refine Finset.sum_congr rfl fun j _ => ?_
  simp only [PiLp.sub_apply, point_coord ho, point_coord hc, point_coord hd, RCLike.inner_apply, conj_trivial]
  ring

theorem wholeDist2_dot {o c : List Int} : wholeDist2 o c = wholeDot o c c := by
  unfold wholeDist2 wholeDot
  congr 1
  induction o generalizing c with
  | nil => simp
  | cons a o ih =>
    cases c with
    | nil => simp
    | cons b c => simp [ih]; ring

theorem wholeDist2_norm {D : Nat} {o c : List Int} (ho : o.length = D) (hc : c.length = D) :
    ‖pointOfInt D c - pointOfInt D o‖ ^ 2 = (wholeDist2 o c : ℝ) := by
  rw [wholeDist2_dot, ← wholeDot_inner ho hc hc, real_inner_self_eq_norm_sq]

theorem wholeDist2_pos {D : Nat} {o c : List Int} (ho : o.length = D) (hc : c.length = D) (h : o ≠ c) : 1 ≤ wholeDist2 o c := by
  have h0 : (0 : ℝ) < wholeDist2 o c := by
    rw [← wholeDist2_norm ho hc]
    refine pow_pos (norm_pos_iff.2 (sub_ne_zero.2 fun e => h ?_)) 2
    refine List.ext_getElem (by omega) fun i h1 h2 => ?_
    have := congrArg (fun x : EuclideanSpace ℝ (Fin D) => x ⟨i, by omega⟩) e
    simp only [point_coord ho, point_coord hc] at this
    have e2 : c.getD i 0 = o.getD i 0 := by exact_mod_cast this
    simpa [h1, h2] using e2.symm
  have : (0 : Int) < wholeDist2 o c := by exact_mod_cast h0
  omega

theorem wholeDist2_le {o c : List Int} (ho : ∀ x ∈ o, x.natAbs ≤ 2 ^ 53) (hc : ∀ x ∈ c, x.natAbs ≤ 2 ^ 53) (hlen : o.length ≤ 3) :
    wholeDist2 o c ≤ 3 * 2 ^ 108 := by
  have key : ∀ (o c : List Int), (∀ x ∈ o, x.natAbs ≤ 2 ^ 53) → (∀ x ∈ c, x.natAbs ≤ 2 ^ 53) → wholeDist2 o c ≤ o.length * 2 ^ 108 := by
    intro o
    induction o with
    | nil => intro c _ _; simp [wholeDist2]
    | cons a o ih =>
      intro c h1 h2
      cases c with
      | nil => simp [wholeDist2]
      | cons b c =>
        have h3 := ih c (fun x hx => h1 x (by simp [hx])) (fun x hx => h2 x (by simp [hx]))
        have h4 := h1 a (by simp)
        have h5 := h2 b (by simp)
        have e : wholeDist2 (a :: o) (b :: c) = (a - b) * (a - b) + wholeDist2 o c := by simp [wholeDist2]
        have h6 : (a - b) * (a - b) ≤ 2 ^ 108 := by
          have : |a - b| ≤ 2 ^ 54 := by rw [abs_le]; omega
          calc (a - b) * (a - b) = |a - b| * |a - b| := (abs_mul_abs_self _).symm
            _ ≤ 2 ^ 54 * 2 ^ 54 := mul_le_mul this this (abs_nonneg _) (by norm_num)
            _ = 2 ^ 108 := by norm_num
        rw [e, List.length_cons]
        push_cast
        linarith
  refine (key o c ho hc).trans ?_
  have : (o.length : Int) ≤ 3 := by exact_mod_cast hlen
  nlinarith

theorem whole_moderate {D : Nat} {o c : List Int} (ho : o.length = D) (hc : c.length = D) (hD : D ≤ 3) (h : o ≠ c)
    (fo : ∀ x ∈ o, x.natAbs ≤ 2 ^ 53) (fc : ∀ x ∈ c, x.natAbs ≤ 2 ^ 53) : Moderate (pointOfInt D c - pointOfInt D o) := by
  have h1 := wholeDist2_pos ho hc h
  have h2 := wholeDist2_le fo fc (by omega)
  have h3 := wholeDist2_norm ho hc
  have k1 : (1 : ℝ) ≤ wholeDist2 o c := by exact_mod_cast h1
  have k2 : (wholeDist2 o c : ℝ) ≤ 3 * 2 ^ 108 := by exact_mod_cast h2
  rw [← h3] at k1 k2
  have h0 := norm_nonneg (pointOfInt D c - pointOfInt D o)
  constructor
  · refine le_trans (zpow_le_one_of_nonpos₀ (by norm_num) (by norm_num)) ?_
    nlinarith
  · refine le_trans (b := ((2 : ℝ) ^ (55 : Int))) ?_ (zpow_le_zpow_right₀ (by norm_num) (by norm_num))
    refine abs_le_of_sq_le_sq' ?_ (by positivity) |>.2
    refine k2.trans ?_
    norm_num

theorem limit_real_le : (Num.cdev : Dbl).real ≤ 1008987272 / 2 ^ 30 := by
  obtain ⟨b, b1, b2⟩ := representableInt (m := 1008987272) (e := -30) (by norm_num) (by norm_num) (by norm_num)
  have h : (roundInt 9396926207859084 (10 ^ 16) 0).code ≤ b.code := roundInt_le (by norm_num) b1 (by rw [b2]; norm_num)
  rw [← value_le, b2, ← Rat.cast_le (K := ℝ)] at h
  refine le_trans (show (roundInt 9396926207859084 (10 ^ 16) 0).real ≤ _ from h) ?_
  norm_num

/-- a cosine that is not too close to the limit: what the test decides -/
theorem test_dbl {c : Dbl} {C : ℝ} (hC : |C| ≤ 93969262 / 10 ^ 8 ∨ 93969263 / 10 ^ 8 ≤ |C|) (h : |c.real - C| ≤ 1 / 2 ^ 35) :
    (Num.lt (Num.ofNat 0) c = true ∧ Num.lt (Num.abs c) Num.cdev = false) ↔ 93969263 / 10 ^ 8 ≤ C := by
  have e0 : (Num.ofNat 0 : Dbl).code = 0 := by decide
  have l1 := limit_real
  have l2 := limit_real_le
  obtain ⟨h1, h2⟩ := abs_le.1 h
  have hlt : ∀ a b : Dbl, a.real < b.real ↔ a.code < b.code := by
    intro a b
    rw [← value_lt]
    unfold Dbl.real
    exact Rat.cast_lt
  have z0 : (Num.ofNat 0 : Dbl).real = 0 := real_ofNat_zero.2
  constructor
  · rintro ⟨h3, h4⟩
    have h3' : (Num.ofNat 0 : Dbl).code < c.code := of_decide_eq_true h3
    have h4' : ¬ (c.code.natAbs : Int) < (Num.cdev : Dbl).code := of_decide_eq_false h4
    have h5 : ¬ c.real < (Num.cdev : Dbl).real := by rw [hlt]; omega
    norm_num at h1 h2 l1 hC ⊢
    rcases hC with h | h
    · have := (abs_le.1 h).2
      linarith
    · rcases le_abs.1 h with h | h
      · exact h
      · linarith
  · intro hC'
    norm_num at h1 h2 hC' l2
    have h5 : (Num.ofNat 0 : Dbl).code < c.code := by rw [← hlt, z0]; linarith
    have h6 : ¬ c.code < (Num.cdev : Dbl).code := by rw [← hlt]; linarith
    exact ⟨decide_eq_true h5, decide_eq_false (show ¬ (c.code.natAbs : Int) < (Num.cdev : Dbl).code by omega)⟩

theorem test_real {lo hi : ℝ} {C : ℝ} (hC : |C| ≤ 93969262 / 10 ^ 8 ∨ 93969263 / 10 ^ 8 ≤ |C|) :
    (@Num.lt ℝ (realNum lo hi) (@Num.ofNat ℝ (realNum lo hi) 0) C = true ∧ @Num.lt ℝ (realNum lo hi) (@Num.abs ℝ (realNum lo hi) C) (@Num.cdev ℝ (realNum lo hi)) = false) ↔
      93969263 / 10 ^ 8 ≤ C := by
  show (decide (((0 : Nat) : ℝ) < C) = true ∧ decide (|C| < 9396926207859084 / 10 ^ 16) = false) ↔ _
  rw [decide_eq_true_eq, decide_eq_false_iff_not, Nat.cast_zero, not_lt]
  constructor
  · rintro ⟨h1, h2⟩
    rw [abs_of_pos h1] at h2 hC
    rcases hC with h | h
    · norm_num at h h2 ⊢; linarith
    · exact h
  · intro h
    have h0 : 0 < C := lt_of_lt_of_le (by norm_num) h
    refine ⟨h0, ?_⟩
    rw [abs_of_pos h0]
    refine le_trans ?_ h
    norm_num

/-! ## Turns -/

/-- a line that comes to the point `o` from `c` can go on to `d` -/
def KeepsOn (o c d : List Int) : Prop :=
  wholeDot o c d < 0 ∧ 93969263 ^ 2 * (wholeDist2 o c * wholeDist2 o d) ≤ 10 ^ 16 * wholeDot o c d ^ 2

/-- the direction in which a line comes to the point `o` from `c`, computed in one of two ways -/
def dirAt {W : Type} [Num W] (φ : Int → W) (back : Bool) (o c : List Int) : List W :=
  if back then (unitFrom (c.map φ) (o.map φ)).map Num.neg else unitFrom (o.map φ) (c.map φ)

section Cosines

variable {D : Nat} {o c d : List Int} (lo' : o.length = D) (lc : c.length = D) (ld : d.length = D) (h1 : o ≠ c) (h2 : o ≠ d)
  (ht : 10 ^ 16 * wholeDot o c d ^ 2 ≤ 93969262 ^ 2 * (wholeDist2 o c * wholeDist2 o d) ∨
      93969263 ^ 2 * (wholeDist2 o c * wholeDist2 o d) ≤ 10 ^ 16 * wholeDot o c d ^ 2)

/-- the cosine of the turn -/
noncomputable def turnCos (D : Nat) (o c d : List Int) : ℝ :=
  -(inner ℝ (pointOfInt D c - pointOfInt D o) (pointOfInt D d - pointOfInt D o) / (‖pointOfInt D c - pointOfInt D o‖ * ‖pointOfInt D d - pointOfInt D o‖))

include lo' lc ld h1 h2

theorem turnCos_eq : ∃ r : ℝ, 0 < r ∧ r ^ 2 = wholeDist2 o c * wholeDist2 o d ∧ turnCos D o c d = -(wholeDot o c d / r) := by
  have p1 : (1 : ℝ) ≤ wholeDist2 o c := by exact_mod_cast wholeDist2_pos lo' lc h1
  have p2 : (1 : ℝ) ≤ wholeDist2 o d := by exact_mod_cast wholeDist2_pos lo' ld h2
  have e1 := wholeDist2_norm lo' lc
  have e2 := wholeDist2_norm lo' ld
  rw [← e1] at p1
  rw [← e2] at p2
  have n1 : 0 < ‖pointOfInt D c - pointOfInt D o‖ := by
    by_contra h
    have : ‖pointOfInt D c - pointOfInt D o‖ = 0 := le_antisymm (not_lt.1 h) (norm_nonneg _)
    rw [this] at p1; norm_num at p1
  have n2 : 0 < ‖pointOfInt D d - pointOfInt D o‖ := by
    by_contra h
    have : ‖pointOfInt D d - pointOfInt D o‖ = 0 := le_antisymm (not_lt.1 h) (norm_nonneg _)
    rw [this] at p2; norm_num at p2
  refine ⟨_, mul_pos n1 n2, by rw [mul_pow, e1, e2], ?_⟩
  unfold turnCos
  rw [wholeDot_inner lo' lc ld]

theorem turnCos_sq {k : Int} (hk : 0 ≤ k) :
    (10 ^ 16 * wholeDot o c d ^ 2 ≤ k ^ 2 * (wholeDist2 o c * wholeDist2 o d) ↔ |turnCos D o c d| ≤ k / 10 ^ 8) ∧
    (k ^ 2 * (wholeDist2 o c * wholeDist2 o d) ≤ 10 ^ 16 * wholeDot o c d ^ 2 ↔ k / 10 ^ 8 ≤ |turnCos D o c d|) := by
  obtain ⟨r, r0, r2, e⟩ := turnCos_eq lo' lc ld h1 h2
  have hk' : (0 : ℝ) ≤ k / 10 ^ 8 := div_nonneg (by exact_mod_cast hk) (by positivity)
  rw [e, abs_neg, abs_div, abs_of_pos r0, div_le_iff₀ r0, le_div_iff₀ r0, ← Int.cast_le (R := ℝ), ← Int.cast_le (R := ℝ),
    ← pow_le_pow_iff_left₀ (abs_nonneg _) (mul_nonneg hk' r0.le) two_ne_zero,
    ← pow_le_pow_iff_left₀ (mul_nonneg hk' r0.le) (abs_nonneg _) two_ne_zero, sq_abs, mul_pow, r2]
  push_cast
  constructor <;> constructor <;> intro h <;> nlinarith

include ht

theorem turnCos_clear : |turnCos D o c d| ≤ 93969262 / 10 ^ 8 ∨ 93969263 / 10 ^ 8 ≤ |turnCos D o c d| := by
  rcases ht with h | h
  · have := (turnCos_sq lo' lc ld h1 h2 (k := 93969262) (by norm_num)).1.1 h
    rw [Int.cast_ofNat] at this
    exact Or.inl this
  · have := (turnCos_sq lo' lc ld h1 h2 (k := 93969263) (by norm_num)).2.1 h
    rw [Int.cast_ofNat] at this
    exact Or.inr this

omit ht in
theorem turnCos_keeps : 93969263 / 10 ^ 8 ≤ turnCos D o c d ↔ KeepsOn o c d := by
  have key := (turnCos_sq lo' lc ld h1 h2 (k := 93969263) (by norm_num)).2
  rw [Int.cast_ofNat] at key
  obtain ⟨r, r0, _, e⟩ := turnCos_eq lo' lc ld h1 h2
  have hsign : 0 < turnCos D o c d ↔ wholeDot o c d < 0 := by
    rw [e, neg_pos, div_lt_iff₀ r0, zero_mul]
    exact_mod_cast Iff.rfl
  unfold KeepsOn
  rw [key, ← hsign]
  constructor
  · intro h
    have h0 : 0 < turnCos D o c d := lt_of_lt_of_le (by norm_num) h
    rw [abs_of_pos h0]
    exact ⟨h0, h⟩
  · rintro ⟨h0, h⟩
    rw [abs_of_pos h0] at h
    exact h

theorem ahead_dbl (hD : D ≤ 3) (fo : ∀ x ∈ o, x.natAbs ≤ 2 ^ 53) (fc : ∀ x ∈ c, x.natAbs ≤ 2 ^ 53) (fd : ∀ x ∈ d, x.natAbs ≤ 2 ^ 53)
    (back : Bool) {e : Dbl} (he : e = scalar (dirAt dblOf back o c) (unitFrom (d.map dblOf) (o.map dblOf))) :
    (Num.lt (Num.ofNat 0) e = true ∧ Num.lt (Num.abs e) Num.cdev = false) ↔ KeepsOn o c d := by
  rw [← turnCos_keeps lo' lc ld h1 h2]
  refine test_dbl (turnCos_clear lo' lc ld h1 h2 ht) ?_
  have fin : ∀ {e : List Int}, (∀ x ∈ e, x.natAbs ≤ 2 ^ 53) → ∀ x ∈ e.map dblOf, x.Finite := by
    intro e he x hx
    obtain ⟨z, hz, rfl⟩ := List.mem_map.1 hx
    exact (dblOf_real (he z hz)).1
  have mod : ∀ {c d : List Int}, c.length = D → d.length = D → (∀ x ∈ c, x.natAbs ≤ 2 ^ 53) → (∀ x ∈ d, x.natAbs ≤ 2 ^ 53) →
      c ≠ d → Moderate (pointOfDbl D (d.map dblOf) - pointOfDbl D (c.map dblOf)) := by
    intro c d lc ld fc fd hne
    rw [pointOfDbl_whole fc, pointOfDbl_whole fd]
    exact whole_moderate lc ld hD hne fc fd
  have lm : ∀ {e : List Int}, e.length = D → (e.map dblOf).length = D := fun h => by simpa using h
  cases back
  · have key := (cosine_near (by omega) (lm lo') (lm lc) (lm ld) (lm lo') (fin fo) (fin fc) (fin fd) (fin fo) (mod lo' lc fo fc h1)
      (mod ld lo' fd fo h2.symm)).1
    rw [pointOfDbl_whole fo, pointOfDbl_whole fc, pointOfDbl_whole fd, ← neg_sub (pointOfInt D d) (pointOfInt D o), inner_neg_right, norm_neg, neg_div] at key
    rw [he]
    exact key
  · have key := (cosine_near (by omega) (lm lc) (lm lo') (lm ld) (lm lo') (fin fc) (fin fo) (fin fd) (fin fo) (mod lc lo' fc fo h1.symm)
      (mod ld lo' fd fo h2.symm)).2
    rw [pointOfDbl_whole fo, pointOfDbl_whole fc, pointOfDbl_whole fd, ← neg_sub (pointOfInt D d) (pointOfInt D o),
      ← neg_sub (pointOfInt D c) (pointOfInt D o), inner_neg_neg, norm_neg, norm_neg] at key
    rw [he]
    unfold turnCos
    rw [sub_neg_eq_add]
    exact key

theorem ahead_real {lo hi : ℝ} (back : Bool) {e : ℝ} (he : e = @scalar ℝ (realNum lo hi) (@dirAt ℝ (realNum lo hi) (fun z : Int => (z : ℝ)) back o c)
      (@unitFrom ℝ (realNum lo hi) (d.map (fun z : Int => (z : ℝ))) (o.map (fun z : Int => (z : ℝ))))) :
    (@Num.lt ℝ (realNum lo hi) (@Num.ofNat ℝ (realNum lo hi) 0) e = true ∧ @Num.lt ℝ (realNum lo hi) (@Num.abs ℝ (realNum lo hi) e) (@Num.cdev ℝ (realNum lo hi)) = false) ↔
      KeepsOn o c d := by
  rw [← turnCos_keeps lo' lc ld h1 h2]
  have lm : ∀ {e : List Int}, e.length = D → (e.map (fun z : Int => (z : ℝ))).length = D := fun h => by simpa using h
  have : e = turnCos D o c d := by
    rw [he]
    cases back
    · have key := scalar_units (lo := lo) (hi := hi) (lm lo') (lm lc) (lm ld) (lm lo')
      refine key.trans ?_
      show inner ℝ (pointOfInt D c - pointOfInt D o) (pointOfInt D o - pointOfInt D d) / (‖pointOfInt D c - pointOfInt D o‖ * ‖pointOfInt D o - pointOfInt D d‖) = _
      rw [← neg_sub (pointOfInt D d) (pointOfInt D o), inner_neg_right, norm_neg, neg_div]
      rfl
    · have l1 : (@unitFrom ℝ (realNum lo hi) (c.map (fun z : Int => (z : ℝ))) (o.map (fun z : Int => (z : ℝ)))).length = D := by
        let _ := realNum lo hi
        exact turnUnit_length (lm lc) (lm lo')
      have l2 : (@unitFrom ℝ (realNum lo hi) (d.map (fun z : Int => (z : ℝ))) (o.map (fun z : Int => (z : ℝ)))).length = D := by
        let _ := realNum lo hi
        exact turnUnit_length (lm ld) (lm lo')
      refine (scalar_neg l1 l2).trans ?_
      rw [scalar_units (lo := lo) (hi := hi) (lm lc) (lm lo') (lm ld) (lm lo')]
      show -(inner ℝ (pointOfInt D o - pointOfInt D c) (pointOfInt D o - pointOfInt D d) / (‖pointOfInt D o - pointOfInt D c‖ * ‖pointOfInt D o - pointOfInt D d‖)) = _
      rw [← neg_sub (pointOfInt D d) (pointOfInt D o), ← neg_sub (pointOfInt D c) (pointOfInt D o), inner_neg_neg, norm_neg, norm_neg]
      rfl
  rw [this]
  exact test_real (turnCos_clear lo' lc ld h1 h2 ht)

end Cosines

/-- two directions close to the opposite of a third one are close to each other -/
theorem spread_real {D : Nat} {x y w : EuclideanSpace ℝ (Fin D)} (hx : x ≠ 0) (hy : y ≠ 0) (hw : w ≠ 0) {t : ℝ}
    (h1 : t ≤ -(inner ℝ x y / (‖x‖ * ‖y‖))) (h2 : t ≤ -(inner ℝ x w / (‖x‖ * ‖w‖))) : 4 * t - 3 ≤ inner ℝ y w / (‖y‖ * ‖w‖) := by
  have nx := norm_pos_iff.2 hx
  have ny := norm_pos_iff.2 hy
  have nw := norm_pos_iff.2 hw
  have key : ∀ a b : EuclideanSpace ℝ (Fin D), inner ℝ (‖a‖⁻¹ • a) (‖b‖⁻¹ • b) = inner ℝ a b / (‖a‖ * ‖b‖) := by
    intro a b
    rw [real_inner_smul_left, real_inner_smul_right, div_eq_mul_inv, mul_inv]
    ring
  have unit : ∀ {a : EuclideanSpace ℝ (Fin D)}, 0 < ‖a‖ → inner ℝ (‖a‖⁻¹ • a) (‖a‖⁻¹ • a) = (1 : ℝ) := by
    intro a ha
    rw [key, real_inner_self_eq_norm_sq]
    field_simp
  rw [← key] at h1 h2 ⊢
  have ux := unit nx
  have uy := unit ny
  have uw := unit nw
  generalize ‖x‖⁻¹ • x = a at *
  generalize ‖y‖⁻¹ • y = b at *
  generalize ‖w‖⁻¹ • w = c at *
  have h3 : (0 : ℝ) ≤ inner ℝ ((b + a) + (c + a)) ((b + a) + (c + a)) := real_inner_self_nonneg
  simp only [inner_add_left, inner_add_right] at h3
  rw [real_inner_comm a b, real_inner_comm a c, real_inner_comm b c] at h3
  rw [ux, uy, uw] at h3
  nlinarith

/-! ## Directions on a mesh with clear turns -/

section Directions

variable {D : Nat} {z : Graph Int} (hc : ClearTurns z.rowPtr z.colInd z.centers) (hl : ∀ c ∈ z.centers, c.length = D)

theorem centers_convert {W : Type} {φ : Int → W} {i : Nat} {c : List W} : (z.convert φ).centers[i]? = some c ↔ ∃ d, z.centers[i]? = some d ∧ c = d.map φ := by
  show (z.centers.map (fun c => c.map φ))[i]? = some c ↔ _
  rw [List.getElem?_map, Option.map_eq_some_iff]
  constructor
  · rintro ⟨d, h1, rfl⟩; exact ⟨d, h1, rfl⟩
  · rintro ⟨d, h1, rfl⟩; exact ⟨d, h1, rfl⟩

/-- the directions in which a line comes to a cell from a neighbour -/
def SameStep {W W' : Type} [Num W] [Num W'] (φ : Int → W) (ψ : Int → W') (z : Graph Int) (i : Nat) (d : List W) (d' : List W') : Prop :=
  ∃ n ci cn, Adj z.rowPtr z.colInd i n ∧ z.centers[i]? = some ci ∧ z.centers[n]? = some cn ∧
    ∃ back, d = dirAt φ back ci cn ∧ d' = dirAt ψ back ci cn

/-- what the test on directions decides, in whole numbers -/
def Decides {W : Type} [Num W] (φ : Int → W) (z : Graph Int) : Prop :=
  ∀ i n m ci cn cm, Adj z.rowPtr z.colInd i n → Adj z.rowPtr z.colInd i m → z.centers[i]? = some ci → z.centers[n]? = some cn →
    z.centers[m]? = some cm → ∀ back, ((∃ c, Ahead (z.convert φ) (dirAt φ back ci cn) i m c) ↔ KeepsOn ci cn cm)

include hc hl

/-- a line that comes from a neighbour can go on to one neighbour at most -/
theorem ClearTurns.same {i n j m : Nat} {ci cn cj cm : List Int} (a1 : Adj z.rowPtr z.colInd i n) (a2 : Adj z.rowPtr z.colInd i j)
    (a3 : Adj z.rowPtr z.colInd i m) (h1 : z.centers[i]? = some ci) (h2 : z.centers[n]? = some cn) (h3 : z.centers[j]? = some cj)
    (h4 : z.centers[m]? = some cm) (k1 : KeepsOn ci cn cj) (k2 : KeepsOn ci cn cm) : j = m := by
  by_contra hne
  have L : ∀ {i : Nat} {c : List Int}, z.centers[i]? = some c → c.length = D := fun h => hl _ (List.mem_of_getElem? h)
  have n1 := hc.apart i n ci cn a1 h1 h2
  have n2 := hc.apart i j ci cj a2 h1 h3
  have n3 := hc.apart i m ci cm a3 h1 h4
  have c1 := (turnCos_keeps (L h1) (L h2) (L h3) n1 n2).2 k1
  have c2 := (turnCos_keeps (L h1) (L h2) (L h4) n1 n3).2 k2
  have nz : ∀ {c : List Int}, c.length = D → ci ≠ c → pointOfInt D c - pointOfInt D ci ≠ 0 := by
    intro c lc hne h0
    have h5 : (1 : ℝ) ≤ wholeDist2 ci c := by exact_mod_cast wholeDist2_pos (L h1) lc hne
    rw [← wholeDist2_norm (L h1) lc, h0] at h5
    norm_num at h5
  have key := spread_real (nz (L h2) n1) (nz (L h3) n2) (nz (L h4) n3) c1 c2
  obtain ⟨r, r0, r2, e⟩ := turnCos_eq (L h1) (L h3) (L h4) n2 n3
  unfold turnCos at e
  rw [neg_inj] at e
  rw [e, le_div_iff₀ r0] at key
  rcases hc.spread i j m ci cj cm a2 a3 hne h1 h3 h4 with h | h
  · have h' : (wholeDot ci cj cm : ℝ) ≤ 0 := by exact_mod_cast h
    norm_num at key
    nlinarith
  · have h' : (4 : ℝ) ^ 2 * (wholeDot ci cj cm : ℝ) ^ 2 ≤ 3 ^ 2 * (wholeDist2 ci cj * wholeDist2 ci cm) := by exact_mod_cast h
    rw [← r2] at h'
    norm_num at key
    have h5 : (0 : ℝ) < wholeDot ci cj cm := by nlinarith
    nlinarith

theorem directions_alike {W W' : Type} [Num W] [Num W'] {φ : Int → W} {ψ : Int → W'} (hs : ∀ i j, Adj z.rowPtr z.colInd i j → Adj z.rowPtr z.colInd j i)
    (hφ : Decides φ z) (hψ : Decides ψ z) :
    DirectionsAlike (z.convert φ) (z.convert ψ) (SameStep φ ψ z) where
  rows := rfl
  cols := rfl
  step i n d ha h := by
    obtain ⟨ci, cn, h1, h2, rfl⟩ := h
    obtain ⟨di, k1, rfl⟩ := centers_convert.1 h1
    obtain ⟨dn, k2, rfl⟩ := centers_convert.1 h2
    exact ⟨_, ⟨_, _, centers_convert.2 ⟨di, k1, rfl⟩, centers_convert.2 ⟨dn, k2, rfl⟩, rfl⟩,
      ⟨i, dn, di, hs i n ha, k2, k1, false, rfl, rfl⟩, ⟨n, di, dn, ha, k1, k2, true, rfl, rfl⟩⟩
  ahead d d' i m c hd ha h := by
    obtain ⟨n, ci, cn, h1, h2, h3, back, rfl, rfl⟩ := hd
    obtain ⟨_, ⟨_, cm, _, h5, _⟩, _⟩ := id h
    obtain ⟨dm, h5, _⟩ := centers_convert.1 h5
    exact (hψ i n m ci cn dm h1 ha h2 h3 h5 back).2 ((hφ i n m ci cn dm h1 ha h2 h3 h5 back).1 ⟨c, h⟩)
  back d d' i m c hd ha h := by
    obtain ⟨n, ci, cn, h1, h2, h3, back, rfl, rfl⟩ := hd
    obtain ⟨_, ⟨_, cm, _, h5, _⟩, _⟩ := id h
    obtain ⟨dm, h5, _⟩ := centers_convert.1 h5
    exact (hφ i n m ci cn dm h1 ha h2 h3 h5 back).2 ((hψ i n m ci cn dm h1 ha h2 h3 h5 back).1 ⟨c, h⟩)
  single d d' i m m' c e hd ha ha' h h' := by
    obtain ⟨n, ci, cn, h1, h2, h3, back, rfl, rfl⟩ := hd
    obtain ⟨_, ⟨_, cm, _, h5, _⟩, _⟩ := id h
    obtain ⟨_, ⟨_, cm', _, h5', _⟩, _⟩ := id h'
    obtain ⟨dm, h5, _⟩ := centers_convert.1 h5
    obtain ⟨dm', h5', _⟩ := centers_convert.1 h5'
    exact hc.same hl h1 ha ha' h2 h3 h5 h5' ((hψ i n m ci cn dm h1 ha h2 h3 h5 back).1 ⟨c, h⟩)
      ((hψ i n m' ci cn dm' h1 ha' h2 h3 h5' back).1 ⟨e, h'⟩)

theorem decides_dbl : Decides dblOf z := by
  intro i n m ci cn cm a1 a2 h1 h2 h3 back
  have L : ∀ {i : Nat} {c : List Int}, z.centers[i]? = some c → c.length = D := fun h => hl _ (List.mem_of_getElem? h)
  have F : ∀ {i : Nat} {c : List Int}, z.centers[i]? = some c → ∀ x ∈ c, x.natAbs ≤ 2 ^ 53 := fun h => (hc.coords _ (List.mem_of_getElem? h)).2
  have hD : D ≤ 3 := by
    have := (hc.coords _ (List.mem_of_getElem? h1)).1
    rwa [L h1] at this
  have key := ahead_dbl (L h1) (L h2) (L h3) (hc.apart i n ci cn a1 h1 h2) (hc.apart i m ci cm a2 h1 h3)
    (hc.turn i n m ci cn cm a1 a2 h1 h2 h3) hD (F h1) (F h2) (F h3) back rfl
  rw [← key]
  constructor
  · rintro ⟨c, _, ⟨dj, dm, h5, h6, rfl⟩, rfl, h7⟩
    obtain ⟨dj, k5, rfl⟩ := centers_convert.1 h5
    obtain ⟨dm, k6, rfl⟩ := centers_convert.1 h6
    rw [h1] at k5
    rw [h3] at k6
    cases k5
    cases k6
    exact h7
  · intro h
    exact ⟨_, _, ⟨_, _, centers_convert.2 ⟨_, h1, rfl⟩, centers_convert.2 ⟨_, h3, rfl⟩, rfl⟩, rfl, h⟩

theorem decides_real {lo hi : ℝ} : @Decides ℝ (realNum lo hi) (fun z : Int => (z : ℝ)) z := by
  intro i n m ci cn cm a1 a2 h1 h2 h3 back
  have L : ∀ {i : Nat} {c : List Int}, z.centers[i]? = some c → c.length = D := fun h => hl _ (List.mem_of_getElem? h)
  have key := ahead_real (lo := lo) (hi := hi) (L h1) (L h2) (L h3) (hc.apart i n ci cn a1 h1 h2) (hc.apart i m ci cm a2 h1 h3)
    (hc.turn i n m ci cn cm a1 a2 h1 h2 h3) back rfl
  rw [← key]
  constructor
  · rintro ⟨c, _, ⟨dj, dm, h5, h6, rfl⟩, rfl, h7⟩
    obtain ⟨dj, k5, rfl⟩ := centers_convert.1 h5
    obtain ⟨dm, k6, rfl⟩ := centers_convert.1 h6
    rw [h1] at k5
    rw [h3] at k6
    cases k5
    cases k6
    exact h7
  · intro h
    exact ⟨_, _, ⟨_, _, centers_convert.2 ⟨_, h1, rfl⟩, centers_convert.2 ⟨_, h3, rfl⟩, rfl⟩, rfl, h⟩

end Directions

/-! ## Cartesian meshes -/

/-- On a Cartesian mesh all turns are clear. -/
theorem Cartesian.clear {rowPtr colInd : List Nat} {centers : List (List Int)} {D : Nat} (hc : Cartesian rowPtr colInd centers)
    (hl : ∀ c ∈ centers, c.length = D) : ClearTurns rowPtr colInd centers := by
  have L : ∀ {i : Nat} {c : List Int}, centers[i]? = some c → c.length = D := fun h => hl _ (List.mem_of_getElem? h)
  have key : ∀ i j m ci cj cm, Adj rowPtr colInd i j → Adj rowPtr colInd i m → centers[i]? = some ci → centers[j]? = some cj →
      centers[m]? = some cm → wholeDot ci cj cm = 0 ∨ (wholeDot ci cj cm ^ 2 = wholeDist2 ci cj * wholeDist2 ci cm ∧ (0 < wholeDot ci cj cm → j = m)) := by
    intro i j m ci cj cm a1 a2 h1 h2 h3
    obtain ⟨k, ⟨x, y, x1, x2, x3⟩, x4⟩ := hc.axis i j ci cj a1 h1 h2
    obtain ⟨l, ⟨x', y', y1, y2, y3⟩, y4⟩ := hc.axis i m ci cm a2 h1 h3
    obtain ⟨hk, e1⟩ := axis_vector (L h2) (L h1) x2 x1 (fun q hq => (x4 q hq).symm)
    obtain ⟨hl', e2⟩ := axis_vector (L h3) (L h1) y2 y1 (fun q hq => (y4 q hq).symm)
    have d1 := wholeDot_inner (L h1) (L h2) (L h3)
    have d2 := wholeDist2_norm (L h1) (L h2)
    have d3 := wholeDist2_norm (L h1) (L h3)
    rw [e1, e2, EuclideanSpace.inner_single_left, EuclideanSpace.single_apply, conj_trivial] at d1
    rw [e1, EuclideanSpace.norm_single, Real.norm_eq_abs, sq_abs] at d2
    rw [e2, EuclideanSpace.norm_single, Real.norm_eq_abs, sq_abs] at d3
    by_cases hkl : k = l
    · subst hkl
      rw [x1] at y1
      cases y1
      rw [if_pos rfl] at d1
      have d1' : wholeDot ci cj cm = (y - x) * (y' - x) := by exact_mod_cast d1.symm
      have d2' : wholeDist2 ci cj = (y - x) ^ 2 := by exact_mod_cast d2.symm
      have d3' : wholeDist2 ci cm = (y' - x) ^ 2 := by exact_mod_cast d3.symm
      right
      refine ⟨by rw [d1', d2', d3']; ring, fun h => ?_⟩
      rw [d1'] at h
      refine hc.single i j m ci cj cm a1 a2 h1 h2 h3 k x y y' x1 x2 y2 ?_
      rcases pos_and_pos_or_neg_and_neg_of_mul_pos h with h | h
      · left; omega
      · right; omega
    · left
      rw [if_neg (fun h => hkl (congrArg Fin.val h)), mul_zero] at d1
      exact_mod_cast d1.symm
  have sq : ∀ o c : List Int, 0 ≤ wholeDist2 o c := by
    intro o c
    refine List.sum_nonneg fun x hx => ?_
    rw [List.mem_iff_getElem] at hx
    obtain ⟨i, hi, rfl⟩ := hx
    rw [List.getElem_zipWith]
    exact mul_self_nonneg _
  refine ⟨hc.coords, ?_, ?_, ?_⟩
  · intro i j ci cj a h1 h2 he
    obtain ⟨k, ⟨x, y, x1, x2, x3⟩, _⟩ := hc.axis i j ci cj a h1 h2
    rw [he, x2] at x1
    exact x3 (Option.some.inj x1).symm
  · intro i j m ci cj cm a1 a2 h1 h2 h3
    rcases key i j m ci cj cm a1 a2 h1 h2 h3 with h | ⟨h, _⟩
    · left
      rw [h]
      have := mul_nonneg (sq ci cj) (sq ci cm)
      nlinarith
    · right
      rw [h]
      have := mul_nonneg (sq ci cj) (sq ci cm)
      nlinarith
  · intro i j m ci cj cm a1 a2 hne h1 h2 h3
    left
    rcases key i j m ci cj cm a1 a2 h1 h2 h3 with h | ⟨_, h⟩
    · exact h.le
    · by_contra hcon
      exact hne (h (not_le.1 hcon))

end CoMMA
