import Verif.Lemmas.WholeTurns
import Verif.Lemmas.Layers
import Verif.Spec.Places
/-! # Directions on Cartesian meshes -/

set_option linter.unusedSectionVars false

namespace CoMMA

variable {D n ax : Nat} {ext : Nat → Nat} {pos : Nat → Nat → Nat} {X : Nat → Nat → ℝ}

/-- the center of a cell -/
noncomputable def placePoint (D : Nat) (pos : Nat → Nat → Nat) (X : Nat → Nat → ℝ) (i : Nat) : EuclideanSpace ℝ (Fin D) :=
  pointOf D ((List.range D).map (fun b => X b (pos i b)))

/-- the cosine of the angle between the neighbours `u` and `w`, seen from `v` -/
noncomputable def cosSeen (D : Nat) (pos : Nat → Nat → Nat) (X : Nat → Nat → ℝ) (u v w : Nat) : ℝ :=
  inner ℝ (placePoint D pos X u - placePoint D pos X v) (placePoint D pos X w - placePoint D pos X v) /
    (‖placePoint D pos X u - placePoint D pos X v‖ * ‖placePoint D pos X w - placePoint D pos X v‖)

theorem placePoint_coord (i : Nat) (j : Fin D) : placePoint D pos X i j = X j (pos i j) := by
  show ((List.range D).map (fun b => X b (pos i b))).getD j 0 = _
  simp

theorem placePoint_along {b : Nat} (hb : b < D) {u v : Nat} (h : ∀ c < D, c ≠ b → pos u c = pos v c) :
    placePoint D pos X u - placePoint D pos X v = EuclideanSpace.single ⟨b, hb⟩ (X b (pos u b) - X b (pos v b)) := by
  ext j
  rw [PiLp.sub_apply, placePoint_coord, placePoint_coord, EuclideanSpace.single_apply]
  by_cases hj : j = ⟨b, hb⟩
  · subst hj; simp
  · rw [if_neg hj, h j j.2 fun e => hj (Fin.ext e), sub_self]

theorem single_cos {b c : Fin D} {s t : ℝ} (hs : s ≠ 0) (ht : t ≠ 0) :
    (b ≠ c → inner ℝ (EuclideanSpace.single b s) (EuclideanSpace.single c t) /
      (‖EuclideanSpace.single b s‖ * ‖EuclideanSpace.single c t‖) = 0) ∧
    (b = c → s * t < 0 → inner ℝ (EuclideanSpace.single b s) (EuclideanSpace.single c t) /
      (‖EuclideanSpace.single b s‖ * ‖EuclideanSpace.single c t‖) = -1) := by
  constructor
  · intro h
    rw [EuclideanSpace.inner_single_left]
    simp [h]
  · rintro rfl h
    rw [EuclideanSpace.inner_single_left]
    simp only [PiLp.norm_single, Real.norm_eq_abs, EuclideanSpace.single_apply, if_true, conj_trivial]
    rw [← abs_mul, abs_of_neg h, div_neg, div_self h.ne]

section Grid

variable {R : Nat → Nat → Prop} (hg : IsGrid D ext n pos R) (hX : Increasing D ext X)

include hg hX

theorem IsGrid.step_ne {b : Nat} (hb : b < D) {u v : Nat} (hu : u < n) (hv : v < n) (h : pos u b + 1 = pos v b) :
    X b (pos u b) - X b (pos v b) < 0 := by
  have := hg.range v hv b hb
  have := hX b hb (pos u b) (by omega)
  rw [h] at this
  linarith

/-- two neighbours of a cell are at a right angle, or on opposite sides -/
theorem IsGrid.cos_seen {u v w : Nat} (h1 : NextTo D (pos v) (pos u)) (h2 : NextTo D (pos v) (pos w)) (hu : u < n) (hv : v < n) (hw : w < n)
    (hne : w ≠ u) :
    (cosSeen D pos X u v w = 0 ∧ ∀ b < D, NextAlong D b (pos u) (pos v) → ¬ NextAlong D b (pos v) (pos w)) ∨
    (cosSeen D pos X u v w = -1 ∧ ∀ b < D, NextAlong D b (pos u) (pos v) ↔ NextAlong D b (pos v) (pos w)) := by
  obtain ⟨b, hb, h3, h4⟩ := h1
  obtain ⟨c, hc, h5, h6⟩ := h2
  have e1 : ∀ {b u}, b < D → u < n → (pos v b + 1 = pos u b ∨ pos u b + 1 = pos v b) → X b (pos u b) - X b (pos v b) ≠ 0 := by
    rintro b u hb hu (h | h)
    · have := hg.step_ne hX hb hv hu h; intro e; linarith
    · exact (hg.step_ne hX hb hu hv h).ne
  have nb : ∀ d < D, NextAlong D d (pos u) (pos v) → d = b := by
    intro d hd h
    by_contra hdb
    have := h4 d hd hdb
    have := h.1
    omega
  have nc : ∀ d < D, NextAlong D d (pos v) (pos w) → d = c := by
    intro d hd h
    by_contra hdb
    have := h6 d hd hdb
    have := h.1
    omega
  unfold cosSeen
  rw [placePoint_along hb (fun d hd hne => (h4 d hd hne).symm), placePoint_along hc (fun d hd hne => (h6 d hd hne).symm)]
  obtain ⟨k1, k2⟩ := single_cos (b := ⟨b, hb⟩) (c := ⟨c, hc⟩) (e1 hb hu h3) (e1 hc hw h5)
  by_cases hbc : b = c
  · subst hbc
    right
    have hopp : (pos v b + 1 = pos u b ∧ pos w b + 1 = pos v b) ∨ (pos u b + 1 = pos v b ∧ pos v b + 1 = pos w b) := by
      by_contra hcon
      refine hne (hg.inj w hw u hu fun d hd => ?_)
      by_cases hdb : d = b
      · subst hdb; omega
      · rw [← h6 d hd hdb, h4 d hd hdb]
    refine ⟨k2 rfl ?_, fun d hd => ⟨fun h => ?_, fun h => ?_⟩⟩
    · rcases hopp with ⟨h7, h8⟩ | ⟨h7, h8⟩
      · have := hg.step_ne hX hb hv hu h7
        have := hg.step_ne hX hb hw hv h8
        exact mul_neg_of_pos_of_neg (by linarith) (by linarith)
      · have := hg.step_ne hX hb hu hv h7
        have := hg.step_ne hX hb hv hw h8
        exact mul_neg_of_neg_of_pos (by linarith) (by linarith)
    · rw [nb d hd h]; exact ⟨h5, h6⟩
    · rw [nc d hd h]; exact ⟨h3.symm, fun e he hne => (h4 e he hne).symm⟩
  · left
    refine ⟨k1 fun h => hbc (Fin.mk.inj_iff.1 h), fun d hd h h' => hbc ?_⟩
    rw [← nb d hd h, ← nc d hd h']

/-- lines along an axis of a Cartesian mesh are straight, if the test on directions is decided by the cosine -/
theorem IsGrid.straight_of {W : Type} [Num W] {g : Graph W} {coupling : Coupling} (hR : R = Adj g.rowPtr g.colInd) (hax : ax < D)
    (hs : ∀ u < n, ∀ v < n, (StrongTo g coupling u v ↔ NextAlong D ax (pos u) (pos v)))
    (hon : ∀ u < n, ∀ v < n, ∀ w < n, NextTo D (pos v) (pos u) → NextTo D (pos v) (pos w) → w ≠ u →
      (GoesOn g u v w ↔ 93969263 / 10 ^ 8 ≤ -cosSeen D pos X u v w))
    (hback : ∀ u < n, ∀ v < n, ∀ w < n, NextTo D (pos v) (pos u) → NextTo D (pos v) (pos w) → w ≠ u →
      (GoesBack g u v w ↔ 93969263 / 10 ^ 8 ≤ -cosSeen D pos X u v w)) : StraightChains g coupling (· < n) := by
  subst hR
  constructor
  · intro u v w hu hv hw huv hvw hne
    have h1 := (hs u hu v hv).1 huv
    obtain ⟨_, _, h2⟩ := (hg.adj v w).1 hvw
    have h0 : NextTo D (pos v) (pos u) := ⟨ax, hax, h1.1.symm, fun b hb hne => (h1.2 b hb hne).symm⟩
    rw [hon u hu v hv w hw h0 h2 hne, hs v hv w hw]
    rcases hg.cos_seen hX h0 h2 hu hv hw hne with ⟨e, h⟩ | ⟨e, h⟩
    · rw [e]
      exact ⟨fun h3 => by norm_num at h3, fun h3 => absurd h3 (h ax hax h1)⟩
    · rw [e]
      exact ⟨fun _ => (h ax hax).1 h1, fun _ => by norm_num⟩
  · intro u v w hu hv hw hvw hvu hne
    have h1 := (hs v hv w hw).1 hvw
    obtain ⟨_, _, h2⟩ := (hg.adj v u).1 hvu
    have h0 : NextTo D (pos v) (pos w) := ⟨ax, hax, h1.1, h1.2⟩
    rw [hback u hu v hv w hw h2 h0 hne.symm, hs v hv u hu]
    rcases hg.cos_seen hX h2 h0 hu hv hw hne.symm with ⟨e, h⟩ | ⟨e, h⟩
    · rw [e]
      exact ⟨fun h3 => by norm_num at h3, fun h3 => absurd h1 (h ax hax h3.symm)⟩
    · rw [e]
      exact ⟨fun _ => ((h ax hax).2 h1).symm, fun _ => by norm_num⟩

theorem IsGrid.cos_clear {u v w : Nat} (h1 : NextTo D (pos v) (pos u)) (h2 : NextTo D (pos v) (pos w)) (hu : u < n) (hv : v < n) (hw : w < n)
    (hne : w ≠ u) : |-cosSeen D pos X u v w| ≤ 93969262 / 10 ^ 8 ∨ 93969263 / 10 ^ 8 ≤ |-cosSeen D pos X u v w| := by
  rcases hg.cos_seen hX h1 h2 hu hv hw hne with ⟨e, _⟩ | ⟨e, _⟩ <;> rw [e] <;> norm_num

end Grid

/-- real numbers -/
theorem IsGrid.straight_real {lo hi : ℝ} {g : Graph ℝ} {coupling : Coupling} (hg : IsGrid D ext n pos (Adj g.rowPtr g.colInd)) (hax : ax < D)
    (hX : Increasing D ext X) (hp : PlacedAt D n pos X g.centers)
    (hs : ∀ u < n, ∀ v < n, (@StrongTo ℝ (realNum lo hi) g coupling u v ↔ NextAlong D ax (pos u) (pos v))) :
    @StraightChains ℝ (realNum lo hi) g coupling (· < n) := by
  let _ := realNum lo hi
  have l : ∀ i, ((List.range D).map (fun b => X b (pos i b))).length = D := fun i => by simp
  refine hg.straight_of hX rfl hax hs ?_ ?_
  · intro u hu v hv w hw h1 h2 hne
    rw [← test_real (lo := lo) (hi := hi) (hg.cos_clear hX h1 h2 hu hv hw hne)]
    have e : scalar (unitFrom ((List.range D).map (fun b => X b (pos v b))) ((List.range D).map (fun b => X b (pos u b))))
        (unitFrom ((List.range D).map (fun b => X b (pos w b))) ((List.range D).map (fun b => X b (pos v b)))) = -cosSeen D pos X u v w := by
      rw [scalar_units (l v) (l u) (l w) (l v)]
      show inner ℝ (placePoint D pos X u - placePoint D pos X v) (placePoint D pos X v - placePoint D pos X w) /
        (‖placePoint D pos X u - placePoint D pos X v‖ * ‖placePoint D pos X v - placePoint D pos X w‖) = _
      rw [← neg_sub (placePoint D pos X w) (placePoint D pos X v), inner_neg_right, norm_neg, neg_div]
      rfl
    constructor
    · rintro ⟨_, ⟨_, _, k1, k2, rfl⟩, c, _, ⟨_, _, k3, k4, rfl⟩, rfl, h⟩
      rw [hp u hu] at k1; rw [hp v hv] at k2 k3; rw [hp w hw] at k4
      cases k1; cases k2; cases k3; cases k4
      rwa [e] at h
    · intro h
      exact ⟨_, ⟨_, _, hp u hu, hp v hv, rfl⟩, _, _, ⟨_, _, hp v hv, hp w hw, rfl⟩, e.symm, h⟩
  · intro u hu v hv w hw h1 h2 hne
    rw [← test_real (lo := lo) (hi := hi) (hg.cos_clear hX h1 h2 hu hv hw hne)]
    have e : scalar ((unitFrom ((List.range D).map (fun b => X b (pos w b))) ((List.range D).map (fun b => X b (pos v b)))).map Num.neg)
        (unitFrom ((List.range D).map (fun b => X b (pos u b))) ((List.range D).map (fun b => X b (pos v b)))) = -cosSeen D pos X u v w := by
      refine (scalar_neg (turnUnit_length (l w) (l v)) (turnUnit_length (l u) (l v))).trans ?_
      rw [scalar_units (l w) (l v) (l u) (l v)]
      show -(inner ℝ (placePoint D pos X v - placePoint D pos X w) (placePoint D pos X v - placePoint D pos X u) /
        (‖placePoint D pos X v - placePoint D pos X w‖ * ‖placePoint D pos X v - placePoint D pos X u‖)) = _
      rw [← neg_sub (placePoint D pos X w) (placePoint D pos X v), ← neg_sub (placePoint D pos X u) (placePoint D pos X v),
        inner_neg_neg, norm_neg, norm_neg, real_inner_comm, mul_comm]
      rfl
    constructor
    · rintro ⟨_, ⟨_, _, k1, k2, rfl⟩, c, _, ⟨_, _, k3, k4, rfl⟩, rfl, h⟩
      rw [hp v hv] at k1 k3; rw [hp w hw] at k2; rw [hp u hu] at k4
      cases k1; cases k2; cases k3; cases k4
      rwa [e] at h
    · intro h
      exact ⟨_, ⟨_, _, hp v hv, hp w hw, rfl⟩, _, _, ⟨_, _, hp v hv, hp u hu, rfl⟩, e.symm, h⟩

theorem SteadySteps.real {Y : Nat → Nat → Dbl} (h : SteadySteps D ext Y) (b : Nat) (hb : b < D) (p : Nat) (hp : p + 1 < ext b) :
    (2 : ℝ) ^ (-450 : Int) ≤ (Y b (p + 1)).real - (Y b p).real ∧ (Y b (p + 1)).real - (Y b p).real ≤ (2 : ℝ) ^ (450 : Int) := by
  obtain ⟨h1, h2⟩ := h.step b hb p hp
  unfold Dbl.real
  rw [← Rat.cast_le (K := ℝ)] at h1 h2
  push_cast at h1 h2
  exact ⟨h1, h2⟩

/-- doubles -/
theorem IsGrid.straight_dbl {Y : Nat → Nat → Dbl} {g : Graph Dbl} {coupling : Coupling} (hg : IsGrid D ext n pos (Adj g.rowPtr g.colInd))
    (hD : D ≤ 16) (hax : ax < D) (hY : SteadySteps D ext Y) (hp : PlacedAt D n pos Y g.centers)
    (hs : ∀ u < n, ∀ v < n, (StrongTo g coupling u v ↔ NextAlong D ax (pos u) (pos v))) :
    StraightChains g coupling (· < n) := by
  have hX : Increasing D ext (fun b p => (Y b p).real) := by
    intro b hb p hp
    have := (hY.real b hb p hp).1
    have h0 : (0 : ℝ) < (2 : ℝ) ^ (-450 : Int) := by positivity
    linarith
  have l : ∀ i, ((List.range D).map (fun b => Y b (pos i b))).length = D := fun i => by simp
  have f : ∀ i < n, ∀ x ∈ (List.range D).map (fun b => Y b (pos i b)), x.Finite := by
    intro i hi x hx
    obtain ⟨b, hb, rfl⟩ := List.mem_map.1 hx
    have hb := List.mem_range.1 hb
    exact hY.finite b hb _ (hg.range i hi b hb)
  have pt : ∀ i, pointOfDbl D ((List.range D).map (fun b => Y b (pos i b))) = placePoint D pos (fun b p => (Y b p).real) i := by
    intro i
    unfold pointOfDbl placePoint
    rw [List.map_map]
    rfl
  have mod : ∀ u < n, ∀ v < n, NextTo D (pos v) (pos u) → Moderate (placePoint D pos (fun b p => (Y b p).real) u -
      placePoint D pos (fun b p => (Y b p).real) v) := by
    rintro u hu v hv ⟨b, hb, h1, h2⟩
    rw [placePoint_along hb (fun d hd hne => (h2 d hd hne).symm)]
    have hru := hg.range u hu b hb
    have hrv := hg.range v hv b hb
    unfold Moderate
    rw [PiLp.norm_single, Real.norm_eq_abs]
    have h0 : (0 : ℝ) < (2 : ℝ) ^ (-450 : Int) := by positivity
    rcases h1 with h | h
    · have := hY.real b hb (pos v b) (by omega)
      rw [h] at this
      rw [abs_of_pos (by linarith)]
      exact this
    · have := hY.real b hb (pos u b) (by omega)
      rw [h] at this
      rw [abs_sub_comm, abs_of_pos (by linarith)]
      exact this
  have modn : ∀ u < n, ∀ v < n, NextTo D (pos v) (pos u) → Moderate (placePoint D pos (fun b p => (Y b p).real) v -
      placePoint D pos (fun b p => (Y b p).real) u) := by
    intro u hu v hv h
    have := mod u hu v hv h
    unfold Moderate at this ⊢
    rwa [norm_sub_rev]
  refine hg.straight_of hX rfl hax hs ?_ ?_
  · intro u hu v hv w hw h1 h2 hne
    have key := (cosine_near hD (l v) (l u) (l w) (l v) (f v hv) (f u hu) (f w hw) (f v hv) (by rw [pt, pt]; exact mod u hu v hv h1)
      (by rw [pt, pt]; exact modn w hw v hv h2)).1
    rw [pt, pt, pt, ← neg_sub (placePoint D pos _ w) (placePoint D pos _ v), inner_neg_right, norm_neg, neg_div] at key
    rw [← test_dbl (hg.cos_clear hX h1 h2 hu hv hw hne) key]
    constructor
    · rintro ⟨_, ⟨_, _, k1, k2, rfl⟩, c, _, ⟨_, _, k3, k4, rfl⟩, rfl, h⟩
      rw [hp u hu] at k1; rw [hp v hv] at k2 k3; rw [hp w hw] at k4
      cases k1; cases k2; cases k3; cases k4
      exact h
    · intro h
      exact ⟨_, ⟨_, _, hp u hu, hp v hv, rfl⟩, _, _, ⟨_, _, hp v hv, hp w hw, rfl⟩, rfl, h⟩
  · intro u hu v hv w hw h1 h2 hne
    have key := (cosine_near hD (l w) (l v) (l u) (l v) (f w hw) (f v hv) (f u hu) (f v hv) (by rw [pt, pt]; exact modn w hw v hv h2)
      (by rw [pt, pt]; exact modn u hu v hv h1)).2
    rw [pt, pt, pt, ← neg_sub (placePoint D pos _ w) (placePoint D pos _ v), ← neg_sub (placePoint D pos _ u) (placePoint D pos _ v),
        inner_neg_neg, norm_neg, norm_neg, real_inner_comm, mul_comm, ← sub_neg_eq_add] at key
    rw [← test_dbl (hg.cos_clear hX h1 h2 hu hv hw hne) key]
    constructor
    · rintro ⟨_, ⟨_, _, k1, k2, rfl⟩, c, _, ⟨_, _, k3, k4, rfl⟩, rfl, h⟩
      rw [hp v hv] at k1 k3; rw [hp w hw] at k2; rw [hp u hu] at k4
      cases k1; cases k2; cases k3; cases k4
      exact h
    · intro h
      exact ⟨_, ⟨_, _, hp v hv, hp w hw, rfl⟩, _, _, ⟨_, _, hp v hv, hp u hu, rfl⟩, rfl, h⟩

end CoMMA
