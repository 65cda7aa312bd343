import Verif.Lemmas.WholeRatios
import Verif.Props.RoundedTagging
import Verif.Props.Units
/-! # Lines built from whole-number weights, in doubles and in real numbers -/

set_option linter.unusedSectionVars false

namespace CoMMA

/-! ## Lines that need not keep their direction -/

/-- two graphs with the same strong couplings and with directions between the same cells -/
structure CouplingsAlike {W W' : Type} [Num W] [Num W'] (g : Graph W) (g' : Graph W') (coupling : Coupling) : Prop where
  step : ∀ i n d, StepDir g i n d → ∃ d', StepDir g' i n d'
  best : ∀ free i x, BestOf (ByCoupling g coupling free i) x → BestOf (ByCoupling g' coupling free i) x
  none : ∀ free i, NoneOf (ByCoupling g coupling free i) → NoneOf (ByCoupling g' coupling free i)

section Alike

variable {W W' : Type} [Num W] [Num W'] {g : Graph W} {g' : Graph W'} {coupling : Coupling}

theorem NextCell.over (h : CouplingsAlike g g' coupling) {free : Nat → Prop} {d : Option (List W)} (d' : Option (List W')) {i : Nat}
    {o : Option Nat} (hn : NextCell g coupling false free d i o) : NextCell g' coupling false free d' i o := by
  cases hn with
  | strongest _ h2 => exact .strongest (Or.inl rfl) (h.best _ _ _ h2)
  | noStrong _ h2 => exact .noStrong (Or.inl rfl) (h.none _ _ h2)
  | straight h1 => cases h1
  | loose h1 => cases h1
  | noWay h1 => cases h1

theorem LineWalk.over (h : CouplingsAlike g g' coupling) {free : Nat → Prop} {d : Option (List W)} (d' : Option (List W')) {i : Nat}
    {l : List Nat} (hn : LineWalk g coupling false free d i l) : LineWalk g' coupling false free d' i l := by
  induction hn generalizing d' with
  | stop h1 => exact .stop (h1.over h d')
  | step h1 h2 _ ih =>
    obtain ⟨e', h3⟩ := h.step _ _ _ h2
    exact .step (h1.over h d') h3 (ih _)

theorem LineFrom.over (h : CouplingsAlike g g' coupling) {free : Nat → Prop} {p : Nat}
    {l : List Nat} (hn : LineFrom g coupling false free p l) : LineFrom g' coupling false free p l := by
  cases hn with
  | alone h1 => exact .alone (h1.over h none)
  | both h1 h2 h3 =>
    obtain ⟨e', h4⟩ := h.step _ _ _ h2
    exact .both (h1.over h none) h4 (h3.over h _)

theorem LinesFrom.over (h : CouplingsAlike g g' coupling) {free : Nat → Prop} {ps : List Nat}
    {ls : List (List Nat)} (hn : LinesFrom g coupling false free ps ls) : LinesFrom g' coupling false free ps ls := by
  induction hn with
  | done => exact .done
  | taken h1 _ ih => exact .taken h1 ih
  | single h1 h2 _ ih => exact .single h1 (h2.over h) ih
  | line h1 h2 h3 _ ih => exact .line h1 (h2.over h) h3 ih

end Alike

/-! ## Numbers that treat small whole numbers exactly -/

/-- operations on whole numbers up to 2 ^ 48 decide as exact ones -/
structure Faithful {W : Type} [Num W] (φ : Int → W) : Prop where
  lt : ∀ x y : Int, x.natAbs ≤ 2 ^ 48 → y.natAbs ≤ 2 ^ 48 → (Num.lt (φ x) (φ y) = true ↔ x < y)
  lawful : LawfulLt W
  zero : φ 0 = Num.ofNat 0
  one : φ 1 = Num.ofNat 1
  unit : Num.div (φ 1) (φ 1) = φ 1
  tenth : ∀ m v : Int, 0 ≤ m → m ≤ 2 ^ 48 → 0 ≤ v → v ≤ 2 ^ 48 → (Num.lt (Num.mul Num.c090 (φ m)) (φ v) = true ↔ 9 * m < 10 * v)
  below : ∀ x : Int, x.natAbs ≤ 2 ^ 48 → Num.lt (φ x) Num.lmax = true
  plane : ∀ t p q : Int, 1 ≤ t → 1 ≤ q → q ≤ p → p ≤ 2 ^ 48 → t * t * q ≤ 2 ^ 48 →
    (Num.le (φ t) (Num.div (φ p) (φ q)) = true ↔ t * q ≤ p)
  space : ∀ t p q : Int, 1 ≤ t → 1 ≤ q → q ≤ p → p ≤ 2 ^ 48 → t * t * q ≤ 2 ^ 48 →
    (Num.le (φ t) (Num.sqrt (Num.div (φ p) (φ q))) = true ↔ t * t * q ≤ p)
  none : ∀ t : Int, 1 ≤ t → t ≤ 2 ^ 48 →
    Num.le (φ t) (Num.div (Num.ofNat 0) Num.lmax) = false ∧ Num.le (φ t) (Num.sqrt (Num.div (Num.ofNat 0) Num.lmax)) = false

/-- face weights between 1 and 2 ^ 48 -/
def SmallWeights (z : Graph Int) : Prop := ∀ v ∈ z.values, 1 ≤ v ∧ v ≤ 2 ^ 48

/-- strong couplings, in whole numbers -/
def WholeStrong (z : Graph Int) (i n : Nat) (v : Int) : Prop :=
  CouplingOf z .maxWeight i n v ∧ ∃ m, (∀ l u, CouplingOf z .maxWeight i l u → u ≤ m) ∧
    ((∃ l, CouplingOf z .maxWeight i l m) ∨ m = 0) ∧ 9 * m < 10 * v

/-- anisotropic cells, in whole numbers -/
def WholeAniso (z : Graph Int) (t : Int) (i : Nat) : Prop :=
  t < 0 ∨ ∃ p q, FaceWeight z i p ∧ FaceWeight z i q ∧ (∀ v, FaceWeight z i v → q ≤ v ∧ v ≤ p) ∧
    (if z.dim = 2 then t * q ≤ p else t * t * q ≤ p)

section Whole

variable {W : Type} [Num W] {φ : Int → W} {z : Graph Int}

theorem coupling_convert {i n : Nat} {w : W} : CouplingOf (z.convert φ) .maxWeight i n w ↔ ∃ v, CouplingOf z .maxWeight i n v ∧ w = φ v := by
  constructor
  · rintro ⟨k, h1, h2⟩
    change (z.values.map φ)[k]? = some w at h2
    rw [List.getElem?_map, Option.map_eq_some_iff] at h2
    obtain ⟨v, h2, rfl⟩ := h2
    exact ⟨v, ⟨k, h1, h2⟩, rfl⟩
  · rintro ⟨v, ⟨k, h1, h2⟩, rfl⟩
    refine ⟨k, h1, ?_⟩
    show (z.values.map φ)[k]? = _
    rw [List.getElem?_map, show z.values[k]? = some v from h2]; rfl

theorem faceWeight_convert {i : Nat} {w : W} : FaceWeight (z.convert φ) i w ↔ ∃ v, FaceWeight z i v ∧ w = φ v := by
  unfold FaceWeight
  constructor
  · rintro ⟨b, e, k, n, h1, h2, h3, h4, h5, h6, h7⟩
    change (z.values.map φ)[k]? = some w at h7
    rw [List.getElem?_map, Option.map_eq_some_iff] at h7
    obtain ⟨v, h7, rfl⟩ := h7
    exact ⟨v, ⟨b, e, k, n, h1, h2, h3, h4, h5, h6, h7⟩, rfl⟩
  · rintro ⟨v, ⟨b, e, k, n, h1, h2, h3, h4, h5, h6, h7⟩, rfl⟩
    refine ⟨b, e, k, n, h1, h2, h3, h4, h5, h6, ?_⟩
    show (z.values.map φ)[k]? = _
    rw [List.getElem?_map, h7]; rfl

theorem coupling_small (hz : SmallWeights z) {i n : Nat} {v : Int} (h : CouplingOf z .maxWeight i n v) : 1 ≤ v ∧ v ≤ 2 ^ 48 := by
  obtain ⟨k, _, h2⟩ := h
  exact hz v (List.mem_of_getElem? h2)

theorem face_small (hz : SmallWeights z) {i : Nat} {v : Int} (h : FaceWeight z i v) : 1 ≤ v ∧ v ≤ 2 ^ 48 := by
  obtain ⟨b, e, k, n, h1, h2, h3, h4, h5, h6, h7⟩ := h
  exact hz v (List.mem_of_getElem? h7)

variable (hφ : Faithful φ)

include hφ

theorem Faithful.nlt {x y : Int} (hx : x.natAbs ≤ 2 ^ 48) (hy : y.natAbs ≤ 2 ^ 48) : Num.lt (φ x) (φ y) = false ↔ y ≤ x := by
  have := hφ.lt x y hx hy
  cases h : Num.lt (φ x) (φ y) with
  | true =>
    have := this.1 h
    simp; omega
  | false =>
    simp only [h, Bool.false_eq_true, false_iff] at this
    simp; omega

theorem strong_convert (hz : SmallWeights z) {i n : Nat} {w : W} :
    StrongCoupling (z.convert φ) .maxWeight i n w ↔ ∃ v, WholeStrong z i n v ∧ w = φ v := by
  unfold StrongCoupling WholeStrong
  constructor
  · rintro ⟨h1, m, ⟨h2, h3⟩, h4⟩
    obtain ⟨v, h1', rfl⟩ := coupling_convert.1 h1
    obtain ⟨v1, v2⟩ := coupling_small hz h1'
    obtain ⟨m0, hm0, rfl, m1, m2⟩ : ∃ m0 : Int, ((∃ l, CouplingOf z .maxWeight i l m0) ∨ m0 = 0) ∧ m = φ m0 ∧ 0 ≤ m0 ∧ m0 ≤ 2 ^ 48 := by
      rcases h3 with ⟨l, hl⟩ | rfl
      · obtain ⟨m0, h5, rfl⟩ := coupling_convert.1 hl
        obtain ⟨a1, a2⟩ := coupling_small hz h5
        exact ⟨m0, Or.inl ⟨l, h5⟩, rfl, by omega, a2⟩
      · exact ⟨0, Or.inr rfl, hφ.zero.symm, le_rfl, by norm_num⟩
    refine ⟨v, ⟨h1', m0, fun l u hu => ?_, hm0, (hφ.tenth m0 v m1 m2 (by omega) v2).1 h4⟩, rfl⟩
    obtain ⟨u1, u2⟩ := coupling_small hz hu
    exact (hφ.nlt (by omega) (by omega)).1 (h2 l (φ u) (coupling_convert.2 ⟨u, hu, rfl⟩))
  · rintro ⟨v, ⟨h1, m, h2, h3, h4⟩, rfl⟩
    obtain ⟨v1, v2⟩ := coupling_small hz h1
    have hm : 0 ≤ m ∧ m ≤ 2 ^ 48 := by
      rcases h3 with ⟨l, hl⟩ | rfl
      · obtain ⟨a1, a2⟩ := coupling_small hz hl
        exact ⟨by omega, a2⟩
      · exact ⟨le_rfl, by norm_num⟩
    refine ⟨coupling_convert.2 ⟨v, h1, rfl⟩, φ m, ⟨fun l u hu => ?_, ?_⟩, (hφ.tenth m v hm.1 hm.2 (by omega) v2).2 h4⟩
    · obtain ⟨u, hu', rfl⟩ := coupling_convert.1 hu
      obtain ⟨u1, u2⟩ := coupling_small hz hu'
      exact (hφ.nlt (by omega) (by omega)).2 (h2 l u hu')
    · rcases h3 with ⟨l, hl⟩ | rfl
      · exact Or.inl ⟨l, coupling_convert.2 ⟨m, hl, rfl⟩⟩
      · exact Or.inr hφ.zero

theorem best_convert (hz : SmallWeights z) {free : Nat → Prop} {i x : Nat} :
    BestOf (ByCoupling (z.convert φ) .maxWeight free i) x ↔
      ∃ v, (free x ∧ WholeStrong z i x v) ∧ ∀ n u, free n ∧ WholeStrong z i n u → u ≤ v ∧ (u < v ∨ x ≤ n) := by
  unfold BestOf ByCoupling
  constructor
  · rintro ⟨w, ⟨h1, h2⟩, h3⟩
    obtain ⟨v, h2', rfl⟩ := (strong_convert hφ hz).1 h2
    obtain ⟨v1, v2⟩ := coupling_small hz h2'.1
    refine ⟨v, ⟨h1, h2'⟩, fun n u hu => ?_⟩
    obtain ⟨u1, u2⟩ := coupling_small hz hu.2.1
    obtain ⟨g1, g2⟩ := h3 n (φ u) ⟨hu.1, (strong_convert hφ hz).2 ⟨u, hu.2, rfl⟩⟩
    refine ⟨(hφ.nlt (by omega) (by omega)).1 g1, g2.imp (fun g => ?_) id⟩
    exact (hφ.lt u v (by omega) (by omega)).1 g
  · rintro ⟨v, ⟨h1, h2⟩, h3⟩
    obtain ⟨v1, v2⟩ := coupling_small hz h2.1
    refine ⟨φ v, ⟨h1, (strong_convert hφ hz).2 ⟨v, h2, rfl⟩⟩, ?_⟩
    rintro n w ⟨hn, hw⟩
    obtain ⟨u, hu, rfl⟩ := (strong_convert hφ hz).1 hw
    obtain ⟨u1, u2⟩ := coupling_small hz hu.1
    obtain ⟨g1, g2⟩ := h3 n u ⟨hn, hu⟩
    refine ⟨(hφ.nlt (by omega) (by omega)).2 g1, g2.imp (fun g => ?_) id⟩
    exact (hφ.lt u v (by omega) (by omega)).2 g

theorem none_convert (hz : SmallWeights z) {free : Nat → Prop} {i : Nat} :
    NoneOf (ByCoupling (z.convert φ) .maxWeight free i) ↔ ∀ n v, ¬ (free n ∧ WholeStrong z i n v) := by
  unfold NoneOf ByCoupling
  constructor
  · rintro h n v ⟨h1, h2⟩
    exact h n (φ v) ⟨h1, (strong_convert hφ hz).2 ⟨v, h2, rfl⟩⟩
  · rintro h n w ⟨h1, h2⟩
    obtain ⟨v, h2', rfl⟩ := (strong_convert hφ hz).1 h2
    exact h n v ⟨h1, h2'⟩

theorem aniso_convert (hz : SmallWeights z) {t : Int} (ht0 : t ≠ 0) (htB : ∀ v ∈ z.values, t * t * v ≤ 2 ^ 48) (ht : t.natAbs ≤ 2 ^ 48) {i : Nat} :
    IsAnisotropic (z.convert φ) (φ t) i ↔ WholeAniso z t i := by
  have hneg : Num.lt (φ t) (Num.ofNat 0) = true ↔ t < 0 := by
    rw [← hφ.zero]
    exact hφ.lt t 0 ht (by norm_num)
  have faceMem : ∀ {i : Nat} {v : Int}, FaceWeight z i v → v ∈ z.values := by
    rintro i v ⟨b, e, k, n, h1, h2, h3, h4, h5, h6, h7⟩
    exact List.mem_of_getElem? h7
  unfold IsAnisotropic WholeAniso
  rw [hneg]
  by_cases hn : t < 0
  · exact ⟨fun _ => Or.inl hn, fun _ => Or.inl hn⟩
  have t1 : 1 ≤ t := by omega
  refine or_congr Iff.rfl ⟨?_, ?_⟩
  · rintro ⟨mn, mx, ⟨h1, h2, h3, h4, h5, h6⟩, h7⟩
    rcases h2 with rfl | h2
    · -- no faces
      have nof : ∀ v, ¬ FaceWeight z i v := by
        intro v hv
        obtain ⟨a1, a2⟩ := face_small hz hv
        have b1 := h1 (φ v) (faceWeight_convert.2 ⟨v, hv, rfl⟩)
        rw [hφ.below v (by omega)] at b1
        cases b1
      rcases h5 with rfl | h5
      · obtain ⟨b1, b2⟩ := hφ.none t t1 (by omega)
        split at h7
        · rw [b1] at h7; cases h7
        · rw [b2] at h7; cases h7
      · obtain ⟨v, hv, _⟩ := faceWeight_convert.1 h5
        exact absurd hv (nof v)
    · obtain ⟨q, hq, rfl⟩ := faceWeight_convert.1 h2
      obtain ⟨q1, q2⟩ := face_small hz hq
      rcases h5 with rfl | h5
      · have := h4 (φ q) (faceWeight_convert.2 ⟨q, hq, rfl⟩)
        rw [← hφ.zero, hφ.nlt (by norm_num) (by omega)] at this
        omega
      · obtain ⟨p, hp, rfl⟩ := faceWeight_convert.1 h5
        obtain ⟨p1, p2⟩ := face_small hz hp
        have all : ∀ v, FaceWeight z i v → q ≤ v ∧ v ≤ p := by
          intro v hv
          obtain ⟨a1, a2⟩ := face_small hz hv
          have b1 := h1 (φ v) (faceWeight_convert.2 ⟨v, hv, rfl⟩)
          have b2 := h4 (φ v) (faceWeight_convert.2 ⟨v, hv, rfl⟩)
          rw [hφ.nlt (by omega) (by omega)] at b1 b2
          exact ⟨b1, b2⟩
        refine ⟨p, q, hp, hq, all, ?_⟩
        have hqp := (all q hq).2
        have hB := htB q (faceMem hq)
        change Num.le (φ t) (if z.dim = 2 then _ else _) = true at h7
        split at h7
        · rename_i hd
          rw [if_pos hd]
          exact (hφ.plane t p q t1 q1 hqp p2 hB).1 h7
        · rename_i hd
          rw [if_neg hd]
          exact (hφ.space t p q t1 q1 hqp p2 hB).1 h7
  · rintro ⟨p, q, hp, hq, all, h7⟩
    obtain ⟨q1, q2⟩ := face_small hz hq
    obtain ⟨p1, p2⟩ := face_small hz hp
    have hqp := (all q hq).2
    have hB := htB q (faceMem hq)
    refine ⟨φ q, φ p, ⟨?_, Or.inr (faceWeight_convert.2 ⟨q, hq, rfl⟩), ?_, ?_, Or.inr (faceWeight_convert.2 ⟨p, hp, rfl⟩), ?_⟩, ?_⟩
    · intro w hw
      obtain ⟨v, hv, rfl⟩ := faceWeight_convert.1 hw
      obtain ⟨a1, a2⟩ := face_small hz hv
      exact (hφ.nlt (by omega) (by omega)).2 (all v hv).1
    · have := hφ.below q (by omega)
      cases h : Num.lt Num.lmax (φ q) with
      | false => rfl
      | true =>
        have h8 := hφ.lawful.trans _ _ _ h this
        rw [hφ.lawful.irrefl] at h8
        cases h8
    · intro w hw
      obtain ⟨v, hv, rfl⟩ := faceWeight_convert.1 hw
      obtain ⟨a1, a2⟩ := face_small hz hv
      exact (hφ.nlt (by omega) (by omega)).2 (all v hv).2
    · rw [← hφ.zero, hφ.nlt (by omega) (by norm_num)]
      omega
    · show Num.le (φ t) (if z.dim = 2 then _ else _) = true
      split
      · rename_i hd
        rw [if_pos hd] at h7
        exact (hφ.plane t p q t1 q1 hqp p2 hB).2 h7
      · rename_i hd
        rw [if_neg hd] at h7
        exact (hφ.space t p q t1 q1 hqp p2 hB).2 h7

theorem threshold_convert {t : Int} (ht0 : t ≠ 0) (ht : t.natAbs ≤ 2 ^ 48) : meantThreshold (φ t) = φ t := by
  unfold meantThreshold
  by_cases h : t = 1
  · subst h
    split
    · rw [← hφ.one]; exact hφ.unit
    · rfl
  · rw [if_neg]
    rintro ⟨h1, h2⟩
    rw [← hφ.zero, hφ.nlt ht (by norm_num)] at h1
    rw [← hφ.one, hφ.nlt (by norm_num) ht] at h2
    omega

end Whole

theorem couplings_alike {W W' : Type} [Num W] [Num W'] {φ : Int → W} {ψ : Int → W'} (hφ : Faithful φ) (hψ : Faithful ψ) {z : Graph Int}
    (hz : SmallWeights z) : CouplingsAlike (z.convert φ) (z.convert ψ) .maxWeight := by
  refine ⟨?_, fun free i x h => (best_convert hψ hz).2 ((best_convert hφ hz).1 h), fun free i h => (none_convert hψ hz).2 ((none_convert hφ hz).1 h)⟩
  rintro i n d ⟨ci, cn, h1, h2, _⟩
  change (z.centers.map (fun c => c.map φ))[i]? = some ci at h1
  change (z.centers.map (fun c => c.map φ))[n]? = some cn at h2
  rw [List.getElem?_map, Option.map_eq_some_iff] at h1 h2
  obtain ⟨c, h1, _⟩ := h1
  obtain ⟨d, h2, _⟩ := h2
  refine ⟨_, c.map ψ, d.map ψ, ?_, ?_, rfl⟩
  · show (z.centers.map (fun c => c.map ψ))[i]? = _
    rw [List.getElem?_map, h1]; rfl
  · show (z.centers.map (fun c => c.map ψ))[n]? = _
    rw [List.getElem?_map, h2]; rfl

/-! ## Doubles and real numbers -/

open Dbl

theorem whole_order {x y : Int} (hx : x.natAbs ≤ 2 ^ 53) (hy : y.natAbs ≤ 2 ^ 53) :
    (Num.lt (dblOf x) (dblOf y) = true ↔ x < y) ∧ (dblOf x = dblOf y ↔ x = y) := by
  have e1 := (whole_exact (absLe hx le_rfl)).2
  have e2 := (whole_exact (absLe hy le_rfl)).2
  constructor
  · show decide ((dblOf x).code < (dblOf y).code) = true ↔ _
    rw [decide_eq_true_eq, ← value_lt]
    unfold dblOf
    rw [e1, e2, Int.cast_lt]
  · constructor
    · intro h
      have : (dblOf x).value = (dblOf y).value := by rw [h]
      unfold dblOf at this
      rw [e1, e2] at this
      exact_mod_cast this
    · rintro rfl; rfl


theorem c090_value : (Num.c090 : Dbl).Finite ∧ (Num.c090 : Dbl).value = 8106479329266893 / 2 ^ 53 := by
  refine ⟨by decide, ?_⟩
  have : (Num.c090 : Dbl) = roundInt 8106479329266893 1 (-53) := by decide +kernel
  rw [this]
  obtain ⟨b, h1, h2⟩ := representableInt (m := 8106479329266893) (e := -53) (by norm_num) (by norm_num) (by norm_num)
  rw [roundInt_exact (by omega) h1 (by rw [h2]; push_cast; ring), h2]
  norm_num

theorem dbl_tenth {m v : Int} (m0 : 0 ≤ m) (m1 : m ≤ 2 ^ 48) (v0 : 0 ≤ v) (v1 : v ≤ 2 ^ 48) :
    Num.lt (Num.mul Num.c090 (dblOf m)) (dblOf v) = true ↔ 9 * m < 10 * v := by
  obtain ⟨f1, f2⟩ := c090_value
  obtain ⟨g1, g2⟩ := whole_exact (z := m) (absLe (b := 2 ^ 48) (by omega) (by norm_num))
  obtain ⟨k1, k2⟩ := whole_exact (z := v) (absLe (b := 2 ^ 48) (by omega) (by norm_num))
  obtain ⟨n, e, h1, h2⟩ := mul_eq f1 g1
  rw [f2, g2] at h2
  show decide ((mul Num.c090 (roundInt m 1 0)).code < (roundInt v 1 0).code) = true ↔ _
  rw [decide_eq_true_eq, h1]
  have hm0 : (0 : ℚ) ≤ m := by exact_mod_cast m0
  have hm1 : (m : ℚ) ≤ 2 ^ 48 := by exact_mod_cast m1
  constructor
  · intro hlt
    by_contra hcon
    have h3 : (10 : ℚ) * v ≤ 9 * m := by exact_mod_cast (by omega : 10 * v ≤ 9 * m)
    have h4 := le_roundInt (n := n) (d := 1) (e := e) (by omega) (b := roundInt v 1 0) k1 (by
      rw [k2, h2]
      norm_num
      linarith)
    omega
  · intro hlt
    have h3 : (9 : ℚ) * m + 1 ≤ 10 * v := by exact_mod_cast (by omega : 9 * m + 1 ≤ 10 * v)
    obtain ⟨b, b1, b2⟩ := representableInt (m := 32 * v - 1) (e := -5) (by norm_num) (by norm_num) (by
      rw [abs_le]; constructor <;> omega)
    have h4 := roundInt_le (n := n) (d := 1) (e := e) (by omega) (b := b) b1 (by
      rw [b2, h2]
      push_cast
      norm_num
      linarith)
    refine lt_of_le_of_lt h4 ?_
    rw [← value_lt, b2, k2]
    push_cast
    norm_num
    linarith

theorem dbl_plane {t p q : Int} (t1 : 1 ≤ t) (q1 : 1 ≤ q) (hqp : q ≤ p) (p1 : p ≤ 2 ^ 48) (hB : t * t * q ≤ 2 ^ 48) :
    Num.le (dblOf t) (Num.div (dblOf p) (dblOf q)) = true ↔ t * q ≤ p := by
  obtain ⟨k, rfl⟩ := Int.eq_ofNat_of_zero_le (show 0 ≤ q by omega)
  have htq : t * k ≤ 2 ^ 48 := by nlinarith
  have ht : t ≤ 2 ^ 48 := by nlinarith
  have hdiv : Num.div (dblOf p) (dblOf k) = roundInt p k 0 :=
    whole_div (absLe (b := 2 ^ 48) (by omega) (by norm_num)) (by omega) (by omega)
  rw [hdiv]
  show decide ((roundInt t 1 0).code ≤ (roundInt p k 0).code) = true ↔ _
  rw [decide_eq_true_eq]
  have hk : (0 : ℚ) < (k : Nat) := by exact_mod_cast (by omega : 0 < k)
  constructor
  · intro hle
    by_contra hcon
    have h3 := round_frac_lt (p := p) (q := t) (c := k) (d := 1) (by omega) (by omega) (by omega) (by
      have : ((t.natAbs * k : Nat) : Int) ≤ 2 ^ 48 := by
        push_cast
        rw [abs_of_nonneg (by omega)]; exact htq
      omega) (by omega) (by
      rw [Nat.cast_one, div_one, div_lt_iff₀ hk]
      exact_mod_cast (by omega : p < t * k))
    omega
  · intro hle
    refine roundInt_mono (by omega) (by omega) ?_
    rw [zpow_zero, mul_one, mul_one, Nat.cast_one, div_one, le_div_iff₀ hk]
    exact_mod_cast hle

theorem dbl_space {t p q : Int} (t1 : 1 ≤ t) (q1 : 1 ≤ q) (hqp : q ≤ p) (p1 : p ≤ 2 ^ 48) (hB : t * t * q ≤ 2 ^ 48) :
    Num.le (dblOf t) (Num.sqrt (Num.div (dblOf p) (dblOf q))) = true ↔ t * t * q ≤ p := by
  obtain ⟨k, rfl⟩ := Int.eq_ofNat_of_zero_le (show 0 ≤ q by omega)
  have htt : t * t ≤ 2 ^ 48 := by nlinarith
  have ht : t ≤ 2 ^ 48 := by nlinarith
  have hdiv : Num.div (dblOf p) (dblOf k) = roundInt p k 0 :=
    whole_div (absLe (b := 2 ^ 48) (by omega) (by norm_num)) (by omega) (by omega)
  have hk : (0 : ℚ) < (k : Nat) := by exact_mod_cast (by omega : 0 < k)
  have hk1 : (1 : ℚ) ≤ (k : Nat) := by exact_mod_cast (by omega : 1 ≤ k)
  have hqpq : (k : ℚ) ≤ p := by exact_mod_cast hqp
  have hone : (1 : ℚ) ≤ (p : ℚ) / (k : Nat) := by rw [le_div_iff₀ hk, one_mul]; exact hqpq
  have hple : (p : ℚ) / (k : Nat) ≤ 2 ^ 48 := by
    rw [div_le_iff₀ hk]
    have : (p : ℚ) ≤ 2 ^ 48 := by exact_mod_cast p1
    nlinarith
  have hfin : (roundInt p k 0).Finite := by
    refine roundInt_fits (by omega) ?_
    rw [zpow_zero, mul_one, abs_of_nonneg (by linarith)]
    refine hple.trans (le_trans ?_ dbl_largest)
    rw [show (2 : ℚ) ^ 48 = (2 : ℚ) ^ (48 : Int) by norm_num]
    exact zpow_le_zpow_right₀ (by norm_num) (by norm_num)
  obtain ⟨t3, t4⟩ := whole_exact (z := t) (absLe (b := 2 ^ 48) (by omega) (by norm_num))
  obtain ⟨o3, o4⟩ := whole_exact (z := 1) (by norm_num)
  have hpos : 0 < (roundInt p k 0).code := by
    have h3 := le_roundInt (n := p) (d := k) (e := 0) (by omega) (b := roundInt 1 1 0) o3 (by
      rw [o4, zpow_zero, mul_one, Int.cast_one]; exact hone)
    have : (roundInt 1 1 0).code = 1023 * 2 ^ 52 := by decide
    omega
  rw [hdiv]
  show decide ((roundInt t 1 0).code ≤ (Dbl.sqrt (roundInt p k 0)).code) = true ↔ _
  rw [decide_eq_true_eq]
  obtain ⟨s1, s2, s3⟩ := Dbl.sqrt_spec hfin hpos
  have err := roundInt_error (n := p) (d := k) (e := 0) (by omega) hfin (Or.inr (by
    rw [zpow_zero, mul_one, abs_of_nonneg (by linarith)]
    exact le_trans (zpow_le_one_of_nonpos₀ (by norm_num) (by norm_num)) hone))
  rw [zpow_zero, mul_one, abs_of_nonneg (a := (p : ℚ) / (k : Nat)) (by linarith)] at err
  constructor
  · intro hle
    by_contra hcon
    rw [← value_le, t4, ← Rat.cast_le (K := ℝ)] at hle
    have e1 : (((2 : ℚ) ^ (-53 : Int) : ℚ)) = 1 / 2 ^ 53 := by norm_num
    rw [e1] at err
    have e2 : (2 : ℝ) ^ (-52 : Int) = 1 / 2 ^ 52 := by norm_num
    rw [e2] at s3
    have gap : (p : ℚ) / (k : Nat) * (1 + 1 / 2 ^ 48) ≤ t * t := by
      rw [div_mul_eq_mul_div, div_le_iff₀ hk]
      have h5 : (p : ℚ) + 1 ≤ t * t * k := by exact_mod_cast (by omega : p + 1 ≤ t * t * k)
      have h6 : (p : ℚ) ≤ 2 ^ 48 := by exact_mod_cast p1
      nlinarith
    have hr : (roundInt p k 0).value ≤ (p : ℚ) / (k : Nat) * (1 + 1 / 2 ^ 53) := by
      have := (abs_le.1 err).2
      linarith
    have hr0 : 0 < (roundInt p k 0).value := by rw [← value_zero, value_lt]; exact hpos
    generalize (p : ℚ) / (k : Nat) = x at *
    have hr' : ((roundInt p k 0).value : ℝ) ≤ (x : ℝ) * (1 + 1 / 2 ^ 53) := by
      have : (((roundInt p k 0).value : ℚ) : ℝ) ≤ ((x * (1 + 1 / 2 ^ 53) : ℚ) : ℝ) := by exact_mod_cast hr
      push_cast at this
      exact this
    have gap' : (x : ℝ) * (1 + 1 / 2 ^ 48) ≤ (t : ℝ) * t := by
      have : ((x * (1 + 1 / 2 ^ 48) : ℚ) : ℝ) ≤ ((t * t : ℚ) : ℝ) := by exact_mod_cast gap
      push_cast at this
      exact this
    have hx : (1 : ℝ) ≤ x := by exact_mod_cast hone
    have hr0' : (0 : ℝ) < ((roundInt p k 0).value : ℝ) := by exact_mod_cast hr0
    have tR : (1 : ℝ) ≤ t := by exact_mod_cast t1
    rw [Rat.cast_intCast] at hle
    generalize ((roundInt p k 0).value : ℝ) = r at *
    generalize ((Dbl.sqrt (roundInt p k 0)).value : ℝ) = s at *
    have hs : s ≤ √r * (1 + 1 / 2 ^ 52) := by
      have := (abs_le.1 s3).2
      linarith
    have hsq : √r * √r = r := Real.mul_self_sqrt hr0'.le
    have h7 : (t : ℝ) ≤ √r * (1 + 1 / 2 ^ 52) := hle.trans hs
    have h8 : (t : ℝ) * t ≤ r * ((1 + 1 / 2 ^ 52) * (1 + 1 / 2 ^ 52)) := by
      calc (t : ℝ) * t ≤ (√r * (1 + 1 / 2 ^ 52)) * (√r * (1 + 1 / 2 ^ 52)) := mul_le_mul h7 h7 (by linarith) (by positivity)
        _ = (√r * √r) * ((1 + 1 / 2 ^ 52) * (1 + 1 / 2 ^ 52)) := by ring
        _ = _ := by rw [hsq]
    have h9 : r * ((1 + 1 / 2 ^ 52) * (1 + 1 / 2 ^ 52)) ≤ (x : ℝ) * (1 + 1 / 2 ^ 53) * ((1 + 1 / 2 ^ 52) * (1 + 1 / 2 ^ 52)) :=
      mul_le_mul_of_nonneg_right hr' (by positivity)
    have h10 : (x : ℝ) * (1 + 1 / 2 ^ 53) * ((1 + 1 / 2 ^ 52) * (1 + 1 / 2 ^ 52)) < (x : ℝ) * (1 + 1 / 2 ^ 48) := by
      rw [mul_assoc]
      refine mul_lt_mul_of_pos_left ?_ (by linarith)
      norm_num
    linarith
  · intro hle
    by_contra hcon
    have hlt : (Dbl.sqrt (roundInt p k 0)).value < t := by
      rw [← t4, value_lt]; omega
    have h5 : ((t * t : Int) : ℚ) ≤ (p : ℚ) / (k : Nat) := by
      rw [le_div_iff₀ hk]
      exact_mod_cast hle
    obtain ⟨w3, w4⟩ := whole_exact (z := t * t) (absLe (b := 2 ^ 48) (by
      have : 0 ≤ t * t := by positivity
      omega) (by norm_num))
    have h6 := le_roundInt (n := p) (d := k) (e := 0) (by omega) (b := roundInt (t * t) 1 0) w3 (by
      rw [w4, zpow_zero, mul_one]; exact h5)
    rw [← value_le, w4] at h6
    have h6' : (t : ℝ) * t ≤ ((roundInt p k 0).value : ℝ) := by
      have : (((t * t : Int) : ℚ) : ℝ) ≤ ((roundInt p k 0).value : ℝ) := by exact_mod_cast h6
      push_cast at this
      exact this
    have tR : (1 : ℝ) ≤ t := by exact_mod_cast t1
    have h7 : (t : ℝ) ≤ √((roundInt p k 0).value : ℝ) := by
      apply Real.le_sqrt_of_sq_le
      rw [sq]; exact h6'
    have h8 := s2 (roundInt t 1 0)
    rw [t4, Rat.cast_intCast] at h8
    have hlt' : ((Dbl.sqrt (roundInt p k 0)).value : ℝ) < t := by
      have : ((Dbl.sqrt (roundInt p k 0)).value : ℝ) < ((t : ℚ) : ℝ) := by exact_mod_cast hlt
      rwa [Rat.cast_intCast] at this
    rw [abs_of_nonpos (by linarith), abs_of_nonpos (by linarith)] at h8
    linarith

theorem dbl_faithful : Faithful dblOf where
  lt x y hx hy := (whole_order (hx.trans (by norm_num)) (hy.trans (by norm_num))).1
  lawful := dbl_lawful
  zero := rfl
  one := rfl
  unit := by decide
  tenth _ _ h1 h2 h3 h4 := dbl_tenth h1 h2 h3 h4
  below x hx := by
    obtain ⟨f1, f2⟩ := whole_exact (z := x) (absLe (b := 2 ^ 48) hx (by norm_num))
    show decide ((roundInt x 1 0).code < (infC - 1 : Int)) = true
    refine decide_eq_true ?_
    show _ < (⟨infC - 1⟩ : Dbl).code
    rw [← value_lt, f2]
    have e : (⟨infC - 1⟩ : Dbl) = largest := by decide
    rw [e]
    have h2 : (x : ℚ) ≤ 2 ^ 48 := by
      have : x ≤ 2 ^ 48 := by omega
      exact_mod_cast this
    refine lt_of_le_of_lt h2 (lt_of_lt_of_le ?_ dbl_largest)
    rw [show (2 : ℚ) ^ 48 = (2 : ℚ) ^ (48 : Int) by norm_num]
    exact zpow_lt_zpow_right₀ (by norm_num) (by norm_num)
  plane _ _ _ h1 h2 h3 h4 h5 := dbl_plane h1 h2 h3 h4 h5
  space _ _ _ h1 h2 h3 h4 h5 := dbl_space h1 h2 h3 h4 h5
  none t t1 ht := by
    have e1 : Num.div (Num.ofNat 0 : Dbl) Num.lmax = ⟨0⟩ := by decide
    have e2 : Num.sqrt (⟨0⟩ : Dbl) = ⟨0⟩ := by decide
    have h0 : 0 < (dblOf t).code := by
      have h1 : (dblOf 0).value < (dblOf t).value := by
        unfold dblOf
        rw [(whole_exact (z := t) (absLe (b := 2 ^ 48) (by omega) (by norm_num))).2, (whole_exact (z := 0) (by norm_num)).2]
        exact_mod_cast (by omega : (0 : Int) < t)
      rw [value_lt] at h1
      have : (dblOf 0).code = 0 := by decide
      omega
    rw [e1, e2]
    have : Num.le (dblOf t) (⟨0⟩ : Dbl) = false := decide_eq_false (by show ¬ (dblOf t).code ≤ 0; omega)
    exact ⟨this, this⟩

theorem real_faithful {lo hi : ℝ} (hhi : 2 ^ 51 < hi) : @Faithful ℝ (realNum lo hi) (fun k : Int => (k : ℝ)) :=
  let _ := realNum lo hi
  { lt := fun x y _ _ => by
      show decide ((x : ℝ) < y) = true ↔ _
      rw [decide_eq_true_eq, Int.cast_lt]
    lawful := real_lawful
    zero := by show ((0 : Int) : ℝ) = ((0 : Nat) : ℝ); simp
    one := by show ((1 : Int) : ℝ) = ((1 : Nat) : ℝ); simp
    unit := by show ((1 : Int) : ℝ) / ((1 : Int) : ℝ) = ((1 : Int) : ℝ); simp
    tenth := fun m v _ _ _ _ => by
      show decide ((9 / 10 : ℝ) * m < v) = true ↔ _
      rw [decide_eq_true_eq, ← Int.cast_lt (R := ℝ)]
      push_cast
      constructor <;> intro h <;> linarith
    below := fun x hx => by
      show decide ((x : ℝ) < hi) = true
      rw [decide_eq_true_eq]
      have : x ≤ 2 ^ 51 := by omega
      have : (x : ℝ) ≤ 2 ^ 51 := by exact_mod_cast this
      linarith
    plane := fun t p q _ h2 _ _ _ => by
      show decide ((t : ℝ) ≤ (p : ℝ) / q) = true ↔ _
      have : (0 : ℝ) < q := by exact_mod_cast h2
      rw [decide_eq_true_eq, le_div_iff₀ this]
      exact_mod_cast Iff.rfl
    space := fun t p q h1 h2 h3 _ _ => by
      show decide ((t : ℝ) ≤ Real.sqrt ((p : ℝ) / q)) = true ↔ _
      have : (0 : ℝ) < q := by exact_mod_cast h2
      have t0 : (0 : ℝ) ≤ t := by exact_mod_cast (by omega : 0 ≤ t)
      have p0 : (0 : ℝ) ≤ (p : ℝ) / q := div_nonneg (by exact_mod_cast (by omega : 0 ≤ p)) this.le
      rw [decide_eq_true_eq, Real.le_sqrt' (by exact_mod_cast h1), le_div_iff₀ this, sq]
      exact_mod_cast Iff.rfl
    none := fun t h1 _ => by
      have e : ((0 : Nat) : ℝ) / hi = 0 := by simp
      have t1 : (1 : ℝ) ≤ t := by exact_mod_cast h1
      constructor
      · show decide ((t : ℝ) ≤ ((0 : Nat) : ℝ) / hi) = false
        rw [e]
        exact decide_eq_false (by linarith)
      · show decide ((t : ℝ) ≤ Real.sqrt (((0 : Nat) : ℝ) / hi)) = false
        rw [e, Real.sqrt_zero]
        exact decide_eq_false (by linarith) }

end CoMMA
