import Verif.Lemmas.WholeRatios
import Verif.Lemmas.WholeLines
import Verif.Lemmas.WholeDistances
import Verif.Props.Units
/-! # C89: with whole-number data rounding plays no part -/

set_option linter.unusedSectionVars false

namespace CoMMA

open Dbl

theorem real_exact {lo hi : ℝ} (hlo : lo < 1) (hhi : 2 ^ 51 < hi) : @ExactReal (realNum lo hi) :=
  @ExactReal.mk (realNum lo hi) (fun _ _ => rfl) (fun _ _ => rfl) (fun _ _ => rfl) (fun _ _ => rfl) (fun _ _ => rfl)
    (fun _ => rfl) (fun _ => rfl) hlo hhi

variable {lo hi : ℝ} {a : Args Int} {P : Platform} {o : Outs} {n V S K : Nat}

theorem before_convert {q : List Int} (hq : ∀ z ∈ q, z.natAbs ≤ 2 ^ 53) :
    @Before ℝ (realNum lo hi) (q.map (fun z : Int => (z : ℝ))) = Before (q.map dblOf) := by
  funext i j
  apply propext
  unfold Before
  constructor
  · rintro ⟨x, y, h1, h2, h3⟩
    rw [List.getElem?_map, Option.map_eq_some_iff] at h1 h2
    obtain ⟨z, h1, rfl⟩ := h1
    obtain ⟨t, h2, rfl⟩ := h2
    obtain ⟨e1, _⟩ := whole_order (hq t (List.mem_of_getElem? h2)) (hq z (List.mem_of_getElem? h1))
    refine ⟨dblOf z, dblOf t, by rw [List.getElem?_map, h1]; rfl, by rw [List.getElem?_map, h2]; rfl, ?_⟩
    rcases h3 with h3 | ⟨h3, h4⟩
    · left
      rw [e1]
      have : (t : ℝ) < z := of_decide_eq_true h3
      exact_mod_cast this
    · right
      have : z = t := by exact_mod_cast h3
      exact ⟨by rw [this], h4⟩
  · rintro ⟨x, y, h1, h2, h3⟩
    rw [List.getElem?_map, Option.map_eq_some_iff] at h1 h2
    obtain ⟨z, h1, rfl⟩ := h1
    obtain ⟨t, h2, rfl⟩ := h2
    obtain ⟨e1, _⟩ := whole_order (hq t (List.mem_of_getElem? h2)) (hq z (List.mem_of_getElem? h1))
    obtain ⟨_, e2⟩ := whole_order (hq z (List.mem_of_getElem? h1)) (hq t (List.mem_of_getElem? h2))
    refine ⟨(z : ℝ), (t : ℝ), by rw [List.getElem?_map, h1]; rfl, by rw [List.getElem?_map, h2]; rfl, ?_⟩
    rcases h3 with h3 | ⟨h3, h4⟩
    · left
      rw [e1] at h3
      exact decide_eq_true (by exact_mod_cast h3)
    · right
      rw [e2] at h3
      exact ⟨by rw [h3], h4⟩

theorem front_convert {q : List Int} (hq : ∀ z ∈ q, z.natAbs ≤ 2 ^ 53) (nb : List Nat) :
    @FrontFirst ℝ (realNum lo hi) nb (q.map (fun z : Int => (z : ℝ))) = FrontFirst nb (q.map dblOf) := by
  have key : ∀ z ∈ q, ∀ t ∈ q, ∀ i j bf bb : Nat, ((bb < bf ∨ (bf = bb ∧ (@Num.lt ℝ (realNum lo hi) (t : ℝ) (z : ℝ) = true ∨
      (@Num.eq ℝ (realNum lo hi) (z : ℝ) (t : ℝ) = true ∧ i < j)))) ↔
      (bb < bf ∨ (bf = bb ∧ (Num.lt (dblOf t) (dblOf z) = true ∨ (Num.eq (dblOf z) (dblOf t) = true ∧ i < j))))) := by
    intro z hz t ht i j bf bb
    obtain ⟨e1, _⟩ := whole_order (hq t ht) (hq z hz)
    obtain ⟨_, e2⟩ := whole_order (hq z hz) (hq t ht)
    have g1 : @Num.lt ℝ (realNum lo hi) (t : ℝ) (z : ℝ) = true ↔ t < z := by
      show decide ((t : ℝ) < z) = true ↔ _
      rw [decide_eq_true_eq, Int.cast_lt]
    have g2 : @Num.eq ℝ (realNum lo hi) (z : ℝ) (t : ℝ) = true ↔ z = t := by
      show decide ((z : ℝ) = t) = true ↔ _
      rw [decide_eq_true_eq, Int.cast_inj]
    have g3 : Num.eq (dblOf z) (dblOf t) = true ↔ z = t := by
      rw [← e2]
      show decide ((dblOf z).code = (dblOf t).code) = true ↔ _
      rw [decide_eq_true_eq]
      exact ⟨eq_of_code, fun h => by rw [h]⟩
    rw [e1, g1, g2, g3]
  funext i j
  apply propext
  unfold FrontFirst
  constructor
  · rintro ⟨bf, bb, x, y, b1, b2, h1, h2, h3⟩
    rw [List.getElem?_map, Option.map_eq_some_iff] at h1 h2
    obtain ⟨z, h1, rfl⟩ := h1
    obtain ⟨t, h2, rfl⟩ := h2
    exact ⟨bf, bb, dblOf z, dblOf t, b1, b2, by rw [List.getElem?_map, h1]; rfl, by rw [List.getElem?_map, h2]; rfl,
      (key z (List.mem_of_getElem? h1) t (List.mem_of_getElem? h2) i j bf bb).1 h3⟩
  · rintro ⟨bf, bb, x, y, b1, b2, h1, h2, h3⟩
    rw [List.getElem?_map, Option.map_eq_some_iff] at h1 h2
    obtain ⟨z, h1, rfl⟩ := h1
    obtain ⟨t, h2, rfl⟩ := h2
    exact ⟨bf, bb, (z : ℝ), (t : ℝ), b1, b2, by rw [List.getElem?_map, h1]; rfl, by rw [List.getElem?_map, h2]; rfl,
      (key z (List.mem_of_getElem? h1) t (List.mem_of_getElem? h2) i j bf bb).2 h3⟩

theorem whole_graph (hm : ValidMesh (a.convert dblOf) n) (hp : ValidParams P (a.convert dblOf)) (h : WholeData a n V S K) :
    WholeGraph (graphOf a) a.aspect V S K := by
  have hs := meshSizes hm
  have hc : a.aspect.geom = true → a.aspect.usesCenters := by
    intro h
    cases ha : a.aspect <;> simp [ha, ARKind.geom] at h <;> simp [ARKind.usesCenters]
  have hw : a.aspect.weights = true → a.aspect.usesWeights := by
    intro h
    cases ha : a.aspect <;> simp [ha, ARKind.weights] at h <;> simp [ARKind.usesWeights]
  have hn : (graphOf a).nbC = n := by
    show a.rowPtr.length - 1 = n
    rw [show a.rowPtr.length = n + 1 from hm.crs.rows]; rfl
  obtain ⟨D, hD⟩ := hm.coords
  refine ⟨?_, hm.sym, ⟨?_, ?_, ?_, ?_, ?_⟩, h.volumes, fun k => h.coords (hc k), fun k => h.distinct (hc k), fun k => h.near (hc k),
    fun k => h.weights (hw k), fun k i hi => h.sums (hw k) i (by rwa [hn] at hi), fun k i b hb h0 => ?_⟩
  · rw [hn]; exact hm.crs
  · rw [hn]; simp [graphOf, clampBnd]; exact hm.bnd
  · rw [hn]; have := hm.volumes; simpa [Args.convert, graphOf] using this
  · rw [hn]; have := hm.centers; simpa [Args.convert, graphOf] using this
  · have := hm.values; simpa [Args.convert, graphOf] using this
  · refine ⟨D, fun c hc => ?_⟩
    have := hD (c.map dblOf) (List.mem_map_of_mem hc)
    simpa using this
  · rw [show (graphOf a).nBnd = clampBnd a.dim.toNat a.nBnd from rfl] at hb
    unfold clampBnd at hb
    rw [List.getElem?_map, Option.map_eq_some_iff] at hb
    obtain ⟨b0, hb, rfl⟩ := hb
    have hd : a.dim = 2 ∨ a.dim = 3 := hp.dim
    have e : (if a.dim.toNat < b0 then a.dim.toNat else b0) = min b0 a.dim.toNat := by
      split <;> omega
    rw [e] at h0 ⊢
    obtain ⟨g1, g2⟩ := h.mean (hw k) i b0 hb (by omega)
    exact ⟨by omega, g1, g2⟩

theorem meant_cases {a : Args Int} (hb : a.buildLines = true) : (a.coupling ≠ .minDistance ∧ meantCoupling a = .maxWeight) ∨ (a.coupling = .minDistance ∧ meantCoupling a = .minDistance) := by
  unfold meantCoupling
  cases hc : a.coupling <;> simp [hb]

theorem WholeLines.small (h : WholeLines a) : SmallWeights (graphOf a) := by
  intro v hv
  obtain ⟨h1, h2⟩ := h.weights v hv
  have h3 : 1 ≤ a.thr * a.thr := by
    have := h.threshold.1
    rcases lt_or_gt_of_ne this with h | h <;> nlinarith
  exact ⟨h1, by nlinarith⟩

theorem aniso_over {W W' : Type} [Num W] [Num W'] {φ : Int → W} {ψ : Int → W'} (h : WholeLines a) (hφ : Faithful φ) (hψ : Faithful ψ) {i : Nat} :
    IsAnisotropic (graphOf (a.convert φ)) (meantThreshold (a.convert φ).thr) i ↔
      IsAnisotropic (graphOf (a.convert ψ)) (meantThreshold (a.convert ψ).thr) i := by
  obtain ⟨t0, t1⟩ := h.threshold
  have t2 : a.thr.natAbs ≤ 2 ^ 48 := t1.trans (by norm_num)
  show IsAnisotropic ((graphOf a).convert φ) (meantThreshold (φ a.thr)) i ↔ IsAnisotropic ((graphOf a).convert ψ) (meantThreshold (ψ a.thr)) i
  rw [threshold_convert hφ t0 t2, threshold_convert hψ t0 t2,
    aniso_convert hφ h.small t0 (fun v hv => (h.weights v hv).2) t2, aniso_convert hψ h.small t0 (fun v hv => (h.weights v hv).2) t2]

theorem BuildsLines.over {W W' : Type} [Num W] [Num W'] {φ : Int → W} {ψ : Int → W'} (h : WholeLines a) (hφ : Faithful φ) (hψ : Faithful ψ)
    (hb : BuildsLines (a.convert φ) n) : BuildsLines (a.convert ψ) n := by
  obtain ⟨t0, t1⟩ := h.threshold
  have t2 : a.thr.natAbs ≤ 2 ^ 48 := t1.trans (by norm_num)
  refine ⟨hb.on, hb.build, hb.compliant, fun h1 h2 => hb.isolated ?_ h2⟩
  change Num.lt (meantThreshold (ψ a.thr)) _ = true at h1
  show Num.lt (meantThreshold (φ a.thr)) _ = true
  rw [threshold_convert hψ t0 t2, ← hψ.zero, hψ.lt _ _ t2 (by norm_num)] at h1
  rw [threshold_convert hφ t0 t2, ← hφ.zero, hφ.lt _ _ t2 (by norm_num)]
  exact h1

/-- **C89.** Volumes, weights, centers and priorities are whole numbers, and the numerators and
denominators of the aspect ratios of coarse cells of `max_card` cells fit into a double.  Then the
call in double precision has the same outputs as the call in exact arithmetic: without lines, with given lines,
with lines built from the weights, or from distances if none are in the ratio that decides whether a coupling is
strong, and with lines that keep their direction if it is clear which neighbours are straight on, as on Cartesian
meshes.

Missing: the aspect ratios with a barycenter, distances in that ratio, and directions in which two neighbours are straight
on, for which the claim is false (below), and angles within a hundred-millionth of the limit. -/
theorem C89_whole_numbers_partial (hlo : lo < 1) (hhi : 2 ^ 51 < hi)
    (hm : ValidMesh (a.convert Num.ofInt : Args Dbl) n) (hp : ValidParams P (a.convert Num.ofInt : Args Dbl))
    (hun : UniqueRows a.rowPtr a.colInd) (hnl : NoSelfLoop a.rowPtr a.colInd)
    (hmode : ValidMode (graphOf (a.convert Num.ofInt : Args Dbl)) (a.convert Num.ofInt : Args Dbl) o n)
    (hlines : a.isAniso = true → a.buildLines = true → WholeLines a)
    (hd : WholeData a n V S K) (hf : RatioFits a.dim a.aspect a.maxCard.toNat V S K) :
    agglomerateOneLevel P (a.convert Num.ofInt : Args Dbl) o =
      @agglomerateOneLevel ℝ (realNum lo hi) P (a.convert (fun z : Int => (z : ℝ))) o := by
  let _ := realNum lo hi
  have hI := real_exact hlo hhi
  change ValidMesh (a.convert dblOf) n at hm
  change ValidParams P (a.convert dblOf) at hp
  change ValidMode (graphOf (a.convert dblOf)) (a.convert dblOf) o n at hmode
  change agglomerateOneLevel P (a.convert dblOf) o = agglomerateOneLevel P (a.convert (fun z : Int => (z : ℝ))) o
  have hmin : 1 < a.minCard := hp.minCard
  have hgoal : a.minCard ≤ a.goalCard := hp.goalCard
  have hmax : a.goalCard ≤ a.maxCard := hp.maxCard
  have hm' : ValidMesh (a.convert (fun z : Int => (z : ℝ))) n := by
    obtain ⟨D, hD⟩ := hm.coords
    refine ⟨hm.pos, hm.crs, hm.sym, Or.inl hun, ?_, ?_, ?_, ?_, hm.bnd, D, ?_⟩
    · have := hm.values; simpa [Args.convert] using this
    · have := hm.volumes; simpa [Args.convert] using this
    · have := hm.centers; simpa [Args.convert] using this
    · have := hm.prio; simpa [Args.convert] using this
    · intro c hc
      obtain ⟨d, hd1, rfl⟩ := List.mem_map.1 (show c ∈ a.centers.map (fun c => c.map (fun z : Int => (z : ℝ))) from hc)
      have := hD (d.map dblOf) (List.mem_map_of_mem hd1)
      simpa using this
  have hp' : ValidParams P (a.convert (fun z : Int => (z : ℝ))) := by
    refine ⟨hp.dim, hp.minCard, hp.goalCard, hp.maxCard, hp.iter, hp.thresh, hp.order, hp.aspect, fun h => ?_⟩
    obtain ⟨h1, h2⟩ := hp.onePoint h
    refine ⟨h1, fun w hw => ?_⟩
    obtain ⟨z, hz, rfl⟩ := List.mem_map.1 (show w ∈ a.prio.map (fun z : Int => (z : ℝ)) from hw)
    have h3 := h2 (dblOf z) (List.mem_map_of_mem hz)
    have hz1 : 1 ≤ z := by
      by_contra hcon
      have h4 : (dblOf z).code < (2 : Int) ^ 52 := by
        have : (dblOf z).value ≤ (dblOf 0).value := by
          unfold dblOf
          rw [(whole_exact (absLe (hd.prio z hz) le_rfl)).2, (whole_exact (z := 0) (by norm_num)).2]
          exact_mod_cast (by omega : z ≤ 0)
        have h5 : ¬ (dblOf 0).code < (dblOf z).code := fun h => absurd (value_lt.2 h) (not_lt.2 this)
        have h6 : (dblOf 0).code = 0 := by decide
        omega
      have : Num.lt (dblOf z) Num.lmin = true := decide_eq_true h4
      rw [this] at h3
      cases h3
    show decide ((z : ℝ) < lo) = false
    rw [decide_eq_false_iff_not, not_lt]
    have : (1 : ℝ) ≤ z := by exact_mod_cast hz1
    linarith
  have takes : ∀ {W W' : Type} [Num W] [Num W'] {φ : Int → W} {ψ : Int → W'} (_ : Faithful φ) (_ : Faithful ψ)
      (_ : Before (a.prio.map ψ) = Before (a.prio.map φ))
      (_ : WholeLines a → a.buildLines = true → CouplingsAlike ((graphOf a).convert φ) ((graphOf a).convert ψ) (meantCoupling a) ∧
        StrongAlike ((graphOf a).convert φ) ((graphOf a).convert ψ) (meantCoupling a) ∧
        (a.forceDir = true → ∃ δ, DirectionsAlike ((graphOf a).convert φ) ((graphOf a).convert ψ) δ))
      {fls : List (List Nat)},
      TakesLines (graphOf (a.convert φ)) (a.convert φ) o n fls → TakesLines (graphOf (a.convert ψ)) (a.convert ψ) o n fls := by
    intro W W' _ _ φ ψ hφ hψ hbef hcpl fls ht
    cases ht with
    | built h1 h2 h3 h4 h5 =>
      have hL := hlines h1.on h1.build
      obtain ⟨c1, c2, c3⟩ := hcpl hL h1.build
      refine .built (h1.over hL hφ hψ) (fun i => ?_) h3 ?_ ?_
      · rw [h2, aniso_over hL hφ hψ]; rfl
      · unfold PriorityOrdered at *
        rw [show (a.convert ψ).prio = a.prio.map ψ from rfl, hbef]
        exact h4
      · change LinesFrom ((graphOf a).convert φ) (meantCoupling a) a.forceDir _ _ _ at h5
        show LinesFrom ((graphOf a).convert ψ) (meantCoupling a) a.forceDir _ _ _
        cases hfd : a.forceDir with
        | false =>
          rw [hfd] at h5
          exact h5.over c1
        | true =>
          rw [hfd] at h5
          obtain ⟨δ, hδ⟩ := c3 hfd
          exact h5.overStraight c1 c2 hδ hψ.lawful
    | given h1 => exact .given ⟨h1.on, h1.build, h1.enc, h1.data, h1.disjoint, h1.range⟩
  have hsym : ∀ i j, Adj (graphOf a).rowPtr (graphOf a).colInd i j → Adj (graphOf a).rowPtr (graphOf a).colInd j i := hm.sym
  have fφ := dbl_faithful
  have fψ := real_faithful (lo := lo) hhi
  have hbef := before_convert (lo := lo) (hi := hi) hd.prio
  obtain ⟨D, hlen⟩ : ∃ D, ∀ c ∈ (graphOf a).centers, c.length = D := by
    obtain ⟨D, hD⟩ := hm.coords
    refine ⟨D, fun c hc => ?_⟩
    have := hD (c.map dblOf) (List.mem_map_of_mem (f := fun c => c.map dblOf) hc)
    simpa using this
  have cpl1 : WholeLines a → a.buildLines = true → CouplingsAlike ((graphOf a).convert dblOf) ((graphOf a).convert (fun z : Int => (z : ℝ))) (meantCoupling a) ∧
        StrongAlike ((graphOf a).convert dblOf) ((graphOf a).convert (fun z : Int => (z : ℝ))) (meantCoupling a) ∧
        (a.forceDir = true → ∃ δ, DirectionsAlike ((graphOf a).convert dblOf) ((graphOf a).convert (fun z : Int => (z : ℝ))) δ) := by
    intro hL hbl
    refine ⟨?_, ?_, fun h => ⟨_, directions_alike (hL.turns h) hlen hsym (decides_dbl (hL.turns h) hlen) (decides_real (hL.turns h) hlen)⟩⟩
    all_goals
      rcases meant_cases hbl with ⟨h1, h2⟩ | ⟨h1, h2⟩ <;> rw [h2]
    · exact couplings_alike fφ fψ hL.small
    · exact (encoded_dbl (hL.coupling h1) hlen).alike (encoded_real (hL.coupling h1) hlen) step_convert
    · exact strong_alike fφ fψ hL.small
    · exact (encoded_dbl (hL.coupling h1) hlen).strongAlike (encoded_real (hL.coupling h1) hlen)
  have cpl2 : WholeLines a → a.buildLines = true → CouplingsAlike ((graphOf a).convert (fun z : Int => (z : ℝ))) ((graphOf a).convert dblOf) (meantCoupling a) ∧
        StrongAlike ((graphOf a).convert (fun z : Int => (z : ℝ))) ((graphOf a).convert dblOf) (meantCoupling a) ∧
        (a.forceDir = true → ∃ δ, DirectionsAlike ((graphOf a).convert (fun z : Int => (z : ℝ))) ((graphOf a).convert dblOf) δ) := by
    intro hL hbl
    refine ⟨?_, fun i j => ((cpl1 hL hbl).2.1 i j).symm, fun h => ⟨_, directions_alike (hL.turns h) hlen hsym (decides_real (hL.turns h) hlen) (decides_dbl (hL.turns h) hlen)⟩⟩
    rcases meant_cases hbl with ⟨h1, h2⟩ | ⟨h1, h2⟩ <;> rw [h2]
    · exact couplings_alike fψ fφ hL.small
    · exact (encoded_real (hL.coupling h1) hlen).alike (encoded_dbl (hL.coupling h1) hlen) step_convert
  have hcall : CallAlike (a.convert dblOf) (a.convert (fun z : Int => (z : ℝ))) o n := by
    refine ⟨hbef, front_convert hd.prio, fun fls ht => takes fφ fψ hbef cpl1 ht, ?_, fun fls ht => hmode.fits fls (takes fψ fφ hbef.symm cpl2 ht)⟩
    rcases hmode.mode with h1 | ⟨h1, h2⟩ | ⟨ls, h1⟩
    · exact Or.inl h1
    · have hL := hlines h1.on h1.build
      refine Or.inr (Or.inl ⟨h1.over hL fφ fψ, ?_⟩)
      show NonnegCouplings ((graphOf a).convert (fun z : Int => (z : ℝ))) (meantCoupling a)
      rcases meant_cases h1.build with ⟨h3, h4⟩ | ⟨h3, h4⟩ <;> rw [h4]
      · intro i j w hw
        obtain ⟨v, hv, rfl⟩ := coupling_convert.1 hw
        obtain ⟨v1, v2⟩ := coupling_small hL.small hv
        rw [← fψ.zero]
        exact (fψ.nlt (by omega) (by norm_num)).2 (by omega)
      · have hE := encoded_real (lo := lo) (hi := hi) (hL.coupling h3) hlen
        intro i j w hw
        obtain ⟨v, hv, rfl⟩ := (hE.of _ _ _).1 hw
        have := hE.pos _ _ _ hv
        cases hlt : Num.lt (1 / (v : ℝ)) (Num.ofNat 0) with
        | false => rfl
        | true =>
          have h5 := real_lawful.trans _ _ _ hlt this
          rw [real_lawful.irrefl] at h5
          cases h5
    · exact Or.inr (Or.inr ⟨ls, h1.on, h1.build, h1.enc, h1.data, h1.disjoint, h1.range⟩)
  have hb := ratioFits_bounds hf (by omega)
  have hR := ratios_whole hI (whole_graph hm hp hd) hb P.hash
  have hcard : cardOr 5 10 a.dim a.maxCard = a.maxCard.toNat := cardOr_pos (by omega)
  rw [← hcard] at hR
  exact (same_call_over (a := a.convert dblOf) hm hp hm' hp' dbl_lawful real_lawful hun hnl hmode hcall hR).symm

/-! ### A concrete case -/

/-- two rows of three cells of width 1 and height 4; lines are built and are to keep their direction -/
def exSlabs (kind : ARKind) (coupling : Coupling := .maxWeight) : Args Int where
  rowPtr := [0, 2, 5, 7, 9, 12, 14]
  colInd := [1, 3, 0, 2, 4, 1, 5, 0, 4, 1, 3, 5, 2, 4]
  values := [4, 1, 4, 4, 1, 4, 1, 1, 4, 1, 4, 4, 1, 4]
  volumes := [4, 4, 4, 4, 4, 4]
  centers := [[0, 0], [1, 0], [2, 0], [0, 4], [1, 4], [2, 4]]
  prio := [1, 1, 1, 1, 1, 1]
  compliant := [0, 1, 2, 3, 4]
  nBnd := [2, 1, 2, 2, 1, 2]
  buildLines := true
  isAniso := true
  oddLine := true
  thr := 4
  order := .boundary
  correction := true
  dim := 2
  goalCard := 4
  minCard := 2
  maxCard := 4
  aspect := kind
  singThresh := 1
  maxCells := none
  coupling := coupling
  forceDir := true
  fcIter := 2
  nbh := .extended

theorem exSlabs_crs : ValidCRS 6 (exSlabs .diameter).rowPtr (exSlabs .diameter).colInd := checkCRS_sound (by decide)

theorem exSlabs_valid (kind : ARKind) (cpl : Coupling) : ValidMesh ((exSlabs kind cpl).convert Num.ofInt : Args Dbl) 6 where
  pos := by decide
  crs := exSlabs_crs
  sym := checkSym_sound exSlabs_crs (show checkSym 6 (exSlabs .diameter).rowPtr (exSlabs .diameter).colInd = true by decide)
  uniq := Or.inr dbl_lawful
  values := rfl
  volumes := rfl
  centers := rfl
  prio := rfl
  bnd := rfl
  coords := ⟨2, show ∀ c ∈ (exSlabs .diameter).centers.map (fun c => c.map (Num.ofInt : Int → Dbl)), c.length = 2 by decide⟩

theorem exSlabs_params {kind : ARKind} (cpl : Coupling) (hk : kind ≠ .unknown) : ValidParams exPlatform ((exSlabs kind cpl).convert Num.ofInt : Args Dbl) where
  dim := by simp [exSlabs, Args.convert]
  minCard := by simp [exSlabs, Args.convert]
  goalCard := by simp [exSlabs, Args.convert]
  maxCard := by simp [exSlabs, Args.convert]
  iter := by simp [exSlabs, Args.convert]
  thresh := by simp [exSlabs, Args.convert]
  order := by simp [exSlabs, Args.convert]
  aspect := hk
  onePoint := by simp [exSlabs, Args.convert]

theorem exSlabs_whole (kind : ARKind) (cpl : Coupling) : WholeData (exSlabs kind cpl) 6 4 9 4 where
  prio := show ∀ q ∈ (exSlabs .diameter).prio, q.natAbs ≤ 2 ^ 53 by decide
  volumes := show ∀ v ∈ (exSlabs .diameter).volumes, 1 ≤ v ∧ v ≤ ((4 : Nat) : Int) by decide
  coords _ := show ∀ c ∈ (exSlabs .diameter).centers, c.length ≤ 3 ∧ ∀ x ∈ c, x.natAbs ≤ 2 ^ 53 by decide
  distinct _ := show (exSlabs .diameter).centers.Nodup by decide
  near _ i j ci cj _ h1 h2 k x y h3 h4 := by
    have h : ∀ ci ∈ (exSlabs .diameter).centers, ∀ cj ∈ (exSlabs .diameter).centers, ∀ p ∈ ci.zip cj, (p.1 - p.2).natAbs ≤ 4 := by decide
    exact h ci (List.mem_of_getElem? h1) cj (List.mem_of_getElem? h2) (x, y)
      (List.mem_of_getElem? (by rw [List.getElem?_zip_eq_some]; exact ⟨h3, h4⟩))
  weights _ := show ∀ w ∈ (exSlabs .diameter).values, 1 ≤ w by decide
  sums _ := show ∀ i < 6, (faceWeights (exSlabs .diameter).rowPtr (exSlabs .diameter).values i).sum ≤ ((9 : Nat) : Int) by decide
  mean _ i b hb h0 := by
    have hi : i < 6 := (List.getElem?_eq_some_iff.1 hb).1
    have h : ∀ i < 6, ∀ b ∈ (exSlabs .diameter).nBnd[i]?, faceWeights (exSlabs .diameter).rowPtr (exSlabs .diameter).values i ≠ [] ∧
      ((faceWeights (exSlabs .diameter).rowPtr (exSlabs .diameter).values i).length : Int) ∣
        (min b 2 : Nat) * (faceWeights (exSlabs .diameter).rowPtr (exSlabs .diameter).values i).sum := by decide
    exact h i hi b hb

/-- coordinates of the example -/
theorem exSlabs_coord {i : Nat} {c : List Int} (h : (exSlabs .diameter).centers[i]? = some c) :
    i < 6 ∧ c.length = 2 ∧ (∀ x ∈ c, x.natAbs ≤ 2 ^ 53) ∧ c = (exSlabs .diameter).centers.getD i [] ∧
      ∀ (k : Nat) x, c[k]? = some x → k < 2 ∧ x = ((exSlabs .diameter).centers.getD i []).getD k 0 := by
  have hi : i < 6 := (List.getElem?_eq_some_iff.1 h).1
  have hc : c = (exSlabs .diameter).centers.getD i [] := by rw [List.getD_eq_getElem?_getD, h]; rfl
  have h2 : ∀ c ∈ (exSlabs .diameter).centers, c.length = 2 ∧ ∀ x ∈ c, x.natAbs ≤ 2 ^ 53 := by decide
  obtain ⟨h3, h4⟩ := h2 c (List.mem_of_getElem? h)
  refine ⟨hi, h3, h4, hc, fun k x hx => ⟨?_, ?_⟩⟩
  · have := (List.getElem?_eq_some_iff.1 hx).1
    omega
  · rw [← hc, List.getD_eq_getElem?_getD, hx]; rfl

theorem exSlabs_cartesian : Cartesian (exSlabs .diameter).rowPtr (exSlabs .diameter).colInd (exSlabs .diameter).centers where
  coords := by decide
  axis i j ci cj ha h1 h2 := by
    obtain ⟨i1, i2, _, i4, _⟩ := exSlabs_coord h1
    obtain ⟨j1, j2, _, j4, _⟩ := exSlabs_coord h2
    have key : ∀ i < 6, ∀ j ∈ rowOf (exSlabs .diameter).rowPtr (exSlabs .diameter).colInd i, ∃ k < 2,
        ((exSlabs .diameter).centers.getD i []).getD k 0 ≠ ((exSlabs .diameter).centers.getD j []).getD k 0 ∧
        ∀ l < 2, l ≠ k → ((exSlabs .diameter).centers.getD i []).getD l 0 = ((exSlabs .diameter).centers.getD j []).getD l 0 := by decide
    obtain ⟨k, k1, k2, k3⟩ := key i i1 j (adj_iff_rowOf.1 ha)
    rw [← i4, ← j4] at k2 k3
    have get : ∀ {c : List Int} {l : Nat}, c.length = 2 → l < 2 → c[l]? = some (c.getD l 0) := by
      intro c l hc hl
      rw [List.getD_eq_getElem?_getD, List.getElem?_eq_getElem (by omega)]; rfl
    refine ⟨k, ⟨_, _, get i2 k1, get j2 k1, k2⟩, fun l hl => ?_⟩
    by_cases h : l < 2
    · rw [get i2 h, get j2 h, k3 l h hl]
    · rw [List.getElem?_eq_none (by omega), List.getElem?_eq_none (by omega)]
  single i j m ci cj cm ha hb h1 h2 h3 k x y z hx hy hz h := by
    obtain ⟨i1, i2, _, i4, i5⟩ := exSlabs_coord h1
    obtain ⟨_, _, _, _, j5⟩ := exSlabs_coord h2
    obtain ⟨_, _, _, _, m5⟩ := exSlabs_coord h3
    obtain ⟨hk, rfl⟩ := i5 k x hx
    obtain ⟨_, rfl⟩ := j5 k y hy
    obtain ⟨_, rfl⟩ := m5 k z hz
    have key : ∀ i < 6, ∀ j ∈ rowOf (exSlabs .diameter).rowPtr (exSlabs .diameter).colInd i, ∀ m ∈ rowOf (exSlabs .diameter).rowPtr (exSlabs .diameter).colInd i,
        ∀ k < 2, (((exSlabs .diameter).centers.getD i []).getD k 0 < ((exSlabs .diameter).centers.getD j []).getD k 0 ∧
          ((exSlabs .diameter).centers.getD i []).getD k 0 < ((exSlabs .diameter).centers.getD m []).getD k 0) ∨
        (((exSlabs .diameter).centers.getD j []).getD k 0 < ((exSlabs .diameter).centers.getD i []).getD k 0 ∧
          ((exSlabs .diameter).centers.getD m []).getD k 0 < ((exSlabs .diameter).centers.getD i []).getD k 0) → j = m := by decide
    exact key i i1 j (adj_iff_rowOf.1 ha) m (adj_iff_rowOf.1 hb) k hk h

theorem exSlabs_clear : ClearDistances (exSlabs .diameter).rowPtr (exSlabs .diameter).colInd (exSlabs .diameter).centers where
  coords := by decide
  apart i j ci cj ha h1 h2 := by
    obtain ⟨i1, _, _, i4, _⟩ := exSlabs_coord h1
    obtain ⟨_, _, _, j4, _⟩ := exSlabs_coord h2
    have key : ∀ i < 6, ∀ j ∈ rowOf (exSlabs .diameter).rowPtr (exSlabs .diameter).colInd i,
        (exSlabs .diameter).centers.getD i [] ≠ (exSlabs .diameter).centers.getD j [] := by decide
    refine ⟨by rw [i4, j4]; exact key i i1 j (adj_iff_rowOf.1 ha), fun k x y h3 h4 => ?_⟩
    exact ((exSlabs_whole .diameter .maxWeight).near (Or.inr (Or.inr (Or.inl rfl))) i j ci cj ha h1 h2 k x y h3 h4).trans (by norm_num)
  ratio i j m ci cj cm ha hb h1 h2 h3 := by
    obtain ⟨i1, _, _, i4, _⟩ := exSlabs_coord h1
    obtain ⟨_, _, _, j4, _⟩ := exSlabs_coord h2
    obtain ⟨_, _, _, m4, _⟩ := exSlabs_coord h3
    have key : ∀ i < 6, ∀ j ∈ rowOf (exSlabs .diameter).rowPtr (exSlabs .diameter).colInd i, ∀ m ∈ rowOf (exSlabs .diameter).rowPtr (exSlabs .diameter).colInd i,
        10 * wholeDist2 ((exSlabs .diameter).centers.getD i []) ((exSlabs .diameter).centers.getD j []) ≠
          9 * wholeDist2 ((exSlabs .diameter).centers.getD i []) ((exSlabs .diameter).centers.getD m []) := by decide
    rw [i4, j4, m4]
    exact key i i1 j (adj_iff_rowOf.1 ha) m (adj_iff_rowOf.1 hb)

theorem exSlabs_lines (kind : ARKind) (coupling : Coupling) : WholeLines (exSlabs kind coupling) where
  coupling _ := exSlabs_clear
  turns _ := exSlabs_cartesian.clear (D := 2) (show ∀ c ∈ (exSlabs .diameter).centers, c.length = 2 by decide)
  threshold := by simp [exSlabs]
  weights := show ∀ w ∈ (exSlabs .diameter).values, 1 ≤ w ∧ (4 : Int) * 4 * w ≤ 2 ^ 48 by decide

theorem exSlabs_mode (kind : ARKind) (cpl : Coupling) {o : Outs} :
    ValidMode (graphOf ((exSlabs kind cpl).convert Num.ofInt : Args Dbl)) ((exSlabs kind cpl).convert Num.ofInt : Args Dbl) o 6 := by
  refine ⟨Or.inr (Or.inl ⟨⟨rfl, rfl, show ∀ i ∈ [0, 1, 2, 3, 4], i < 6 by decide, fun h => ?_⟩, ?_⟩), fun fls _ l _ m hm => ?_⟩
  · exact absurd (show Num.lt (meantThreshold (Num.ofInt 4 : Dbl)) (Num.ofNat 0) = true from h) (by decide +kernel)
  · show NonnegCouplings _ (meantCoupling (exSlabs kind cpl))
    rcases meant_cases (a := exSlabs kind cpl) rfl with ⟨_, h⟩ | ⟨_, h⟩ <;> rw [h]
    · rintro i n w ⟨k, _, hw⟩
      have h : ∀ w ∈ (exSlabs .diameter).values.map (Num.ofInt : Int → Dbl), Num.lt w (Num.ofNat 0) = false := by decide +kernel
      exact h w (List.mem_of_getElem? hw)
    · have hE := encoded_dbl (z := graphOf (exSlabs kind cpl)) (D := 2) exSlabs_clear
        (show ∀ c ∈ (exSlabs .diameter).centers, c.length = 2 by decide)
      intro i n w hw
      obtain ⟨v, hv, rfl⟩ := (hE.of i n w).1 hw
      have h1 := hE.pos _ _ _ hv
      cases h2 : Num.lt (Num.div (Num.ofNat 1) (dblOf v)) (Num.ofNat 0) with
      | false => rfl
      | true =>
        have h5 := dbl_lawful.trans _ _ _ h2 h1
        rw [dbl_lawful.irrefl] at h5
        cases h5
  · cases hm

theorem exSlabs_fits {kind : ARKind} (hk : kind.byDistances) (h0 : kind ≠ .unknown) : RatioFits 2 kind 4 4 9 4 := by
  obtain ⟨k1, k2⟩ := hk
  cases kind <;> simp_all [RatioFits]

/-- eight types of aspect ratio, lines built from the weights or from the distances -/
example (o : Outs) (kind : ARKind) (cpl : Coupling) (hk : kind.byDistances) (h0 : kind ≠ .unknown) :=
  C89_whole_numbers_partial (lo := 1 / 2) (hi := 2 ^ 52) (P := exPlatform) (o := o) (by norm_num) (by norm_num)
    (exSlabs_valid kind cpl) (exSlabs_params cpl h0)
    (checkUniq_sound exSlabs_crs (show checkUniq 6 (exSlabs .diameter).rowPtr (exSlabs .diameter).colInd = true by decide))
    (checkNoLoop_sound exSlabs_crs (show checkNoLoop 6 (exSlabs .diameter).rowPtr (exSlabs .diameter).colInd = true by decide))
    (exSlabs_mode kind cpl) (fun _ _ => exSlabs_lines kind cpl) (exSlabs_whole kind cpl) (exSlabs_fits hk h0)

/-- the lines are built: both rows, but for the last cell of the second one, which is not compliant -/
example : fineLines exPlatform ((exSlabs .diameter).convert Num.ofInt : Args Dbl) ⟨[], [], []⟩ = .ok [[0, 1, 2], [3, 4]] ∧
    fineLines exPlatform ((exSlabs .diameter .minDistance).convert Num.ofInt : Args Dbl) ⟨[], [], []⟩ = .ok [[0, 1, 2], [3, 4]] := by
  decide +kernel

/-- the directions of a mesh that is not Cartesian may be clear too: the two rows of the mesh above, bent by 18 degrees at
the middle -/
example : ClearTurns (exSlabs .diameter).rowPtr (exSlabs .diameter).colInd [[0, 0], [3, 1], [6, 1], [0, 4], [3, 5], [6, 5]] := by
  have key : ∀ i < 6, ∀ j ∈ rowOf (exSlabs .diameter).rowPtr (exSlabs .diameter).colInd i,
      ∀ m ∈ rowOf (exSlabs .diameter).rowPtr (exSlabs .diameter).colInd i, ∀ ci cj cm : List Int,
      ci = [[0, 0], [3, 1], [6, 1], [0, 4], [3, 5], [6, 5]].getD i [] → cj = [[0, 0], [3, 1], [6, 1], [0, 4], [3, 5], [6, 5]].getD j [] →
      cm = [[0, 0], [3, 1], [6, 1], [0, 4], [3, 5], [6, 5]].getD m [] → ci ≠ cj ∧
      (10 ^ 16 * wholeDot ci cj cm ^ 2 ≤ 93969262 ^ 2 * (wholeDist2 ci cj * wholeDist2 ci cm) ∨
        93969263 ^ 2 * (wholeDist2 ci cj * wholeDist2 ci cm) ≤ 10 ^ 16 * wholeDot ci cj cm ^ 2) ∧
      (j ≠ m → wholeDot ci cj cm ≤ 0 ∨ 4 ^ 2 * wholeDot ci cj cm ^ 2 ≤ 3 ^ 2 * (wholeDist2 ci cj * wholeDist2 ci cm)) := by
    intro i hi j hj m hm ci cj cm h1 h2 h3
    subst h1 h2 h3
    revert m
    revert j
    revert i
    decide
  have lt : ∀ {i : Nat} {c : List Int}, [[0, 0], [3, 1], [6, 1], [0, 4], [3, 5], [6, 5]][i]? = some c →
      i < 6 ∧ c = [[0, 0], [3, 1], [6, 1], [0, 4], [3, 5], [6, 5]].getD i [] := by
    intro i c h
    exact ⟨(List.getElem?_eq_some_iff.1 h).1, by rw [List.getD_eq_getElem?_getD, h]; rfl⟩
  refine ⟨by decide, fun i j ci cj a h1 h2 => ?_, fun i j m ci cj cm a1 a2 h1 h2 h3 => ?_, fun i j m ci cj cm a1 a2 hne h1 h2 h3 => ?_⟩
  · exact (key i (lt h1).1 j (adj_iff_rowOf.1 a) j (adj_iff_rowOf.1 a) ci cj cj (lt h1).2 (lt h2).2 (lt h2).2).1
  · exact (key i (lt h1).1 j (adj_iff_rowOf.1 a1) m (adj_iff_rowOf.1 a2) ci cj cm (lt h1).2 (lt h2).2 (lt h3).2).2.1
  · exact (key i (lt h1).1 j (adj_iff_rowOf.1 a1) m (adj_iff_rowOf.1 a2) ci cj cm (lt h1).2 (lt h2).2 (lt h3).2).2.2 hne

/-! ### Where rounding matters even for small whole numbers -/

/-- five cells, all neighbours of each other -/
def exFive : Args Int :=
  { exSlabs .maxBaryOverRadius with
    rowPtr := [0, 4, 8, 12, 16, 20]
    colInd := [1, 2, 3, 4, 0, 2, 3, 4, 0, 1, 3, 4, 0, 1, 2, 4, 0, 1, 2, 3]
    values := List.replicate 20 1
    volumes := List.replicate 5 1
    centers := [[2, 3], [3, 3], [2, 2], [0, 3], [3, 2]]
    prio := List.replicate 5 1
    compliant := []
    nBnd := List.replicate 5 0
    isAniso := false
    buildLines := false
    correction := false
    goalCard := 3
    maxCard := 3
    fcIter := 1 }

/-- three cells; the first one is at distance 3 from the second and at distance `√10` from the third -/
def exNinth : Args Int :=
  { exSlabs .diameter with
    rowPtr := [0, 2, 3, 4]
    colInd := [1, 2, 0, 0]
    values := [1, 1, 1, 1]
    volumes := [1, 1, 1]
    centers := [[0, 0], [3, 0], [1, 3]]
    prio := [1, 1, 1]
    compliant := [0, 1, 2]
    nBnd := [1, 1, 1]
    thr := -1
    correction := false
    forceDir := false
    coupling := .minDistance }

/-- **C89 is false with the barycenter** (aspect ratio of the largest distance from it): the exact
barycenter of three cells has thirds for coordinates, equal aspect ratios are no longer equal when they are rounded, and
other cells are chosen. -/
theorem C89_barycenter_counterexample :
    ValidMesh (exFive.convert Num.ofInt : Args Dbl) 5 ∧ ValidParams exPlatform (exFive.convert Num.ofInt : Args Dbl) ∧
      UniqueRows exFive.rowPtr exFive.colInd ∧ NoSelfLoop exFive.rowPtr exFive.colInd ∧ exFive.isAniso = false ∧
      exFive.aspect = .maxBaryOverRadius ∧
      (agglomerateOneLevel exPlatform (exFive.convert Num.ofInt : Args Dbl) ⟨[], [], []⟩).1.fcToCc = [0, 0, 1, 1, 0] ∧
      (@agglomerateOneLevel Rat ratNum exPlatform (exFive.convert (fun z : Int => (z : Rat))) ⟨[], [], []⟩).1.fcToCc = [0, 0, 0, 1, 1] := by
  have hc : ValidCRS 5 exFive.rowPtr exFive.colInd := checkCRS_sound (by decide)
  refine ⟨⟨by decide, hc, checkSym_sound hc (by decide), Or.inr dbl_lawful, rfl, rfl, rfl, rfl, rfl, 2,
    show ∀ c ∈ exFive.centers.map (fun c => c.map (Num.ofInt : Int → Dbl)), c.length = 2 by decide⟩,
    ⟨?_, ?_, ?_, ?_, ?_, ?_, ?_, ?_, ?_⟩, checkUniq_sound hc (by decide), checkNoLoop_sound hc (by decide), rfl, rfl,
    by decide +kernel, by decide +kernel⟩ <;> simp [exFive, exSlabs, Args.convert]

/-- **C89 is false with lines coupled by distance**: the coupling with the third cell is 0.9 times that with the second,
so it is not strong; in double precision it is, and the line has one cell more. -/
theorem C89_distance_counterexample :
    ValidMesh (exNinth.convert Num.ofInt : Args Dbl) 3 ∧ BuildsLines (exNinth.convert Num.ofInt : Args Dbl) 3 ∧ exNinth.forceDir = false ∧
      meantCoupling exNinth = .minDistance ∧
      fineLines exPlatform (exNinth.convert Num.ofInt : Args Dbl) ⟨[], [], []⟩ = .ok [[2, 0, 1]] ∧
      @fineLines Rat ratNum exPlatform (exNinth.convert (fun z : Int => (z : Rat))) ⟨[], [], []⟩ = .ok [[0, 1]] := by
  have hc : ValidCRS 3 exNinth.rowPtr exNinth.colInd := checkCRS_sound (by decide)
  refine ⟨⟨by decide, hc, checkSym_sound hc (by decide), Or.inr dbl_lawful, rfl, rfl, rfl, rfl, rfl, 2,
    show ∀ c ∈ exNinth.centers.map (fun c => c.map (Num.ofInt : Int → Dbl)), c.length = 2 by decide⟩,
    ⟨rfl, rfl, show ∀ i ∈ [0, 1, 2], i < 3 by decide, fun _ h => ?_⟩, rfl, rfl, by decide +kernel, by decide +kernel⟩
  exact absurd h (by decide)

/-- four cells in a fork; the segments from the second cell to the last two are bent by the same angle, to one side and to
the other -/
def exFork : Args Int :=
  { exSlabs .diameter with
    rowPtr := [0, 1, 4, 5, 6]
    colInd := [1, 0, 2, 3, 1, 1]
    values := [1, 1, 1, 1, 1, 1]
    volumes := [1, 1, 1, 1]
    centers := [[-1, 0], [0, 0], [24, 7], [72, -21]]
    prio := [1, 1, 1, 1]
    compliant := [0, 1, 2, 3]
    nBnd := [1, 1, 1, 1]
    thr := -1
    correction := false }

/-- exact rational arithmetic, with the roots of the squares of whole numbers -/
@[reducible] def rootNum : Num Rat := { ratNum with sqrt := fun a => (Dbl.isqrt a.num.toNat 20 0 : Nat) }

/-- the roots taken below -/
example : rootNum.sqrt 1 = 1 ∧ rootNum.sqrt (24 * 24 + 7 * 7) = 25 ∧ rootNum.sqrt (72 * 72 + 21 * 21) = 75 := by decide +kernel

/-- **C89 is false with lines that keep their direction, if two neighbours are straight on**: both segments follow
the line equally well, and the cell of lower index goes on the line; in double precision the other one follows it better. -/
theorem C89_direction_counterexample :
    ValidMesh (exFork.convert Num.ofInt : Args Dbl) 4 ∧ BuildsLines (exFork.convert Num.ofInt : Args Dbl) 4 ∧ exFork.forceDir = true ∧
      meantCoupling exFork = .maxWeight ∧
      fineLines exPlatform (exFork.convert Num.ofInt : Args Dbl) ⟨[], [], []⟩ = .ok [[0, 1, 3]] ∧
      @fineLines Rat rootNum exPlatform (exFork.convert (fun z : Int => (z : Rat))) ⟨[], [], []⟩ = .ok [[0, 1, 2]] := by
  have hc : ValidCRS 4 exFork.rowPtr exFork.colInd := checkCRS_sound (by decide)
  refine ⟨⟨by decide, hc, checkSym_sound hc (by decide), Or.inr dbl_lawful, rfl, rfl, rfl, rfl, rfl, 2,
    show ∀ c ∈ exFork.centers.map (fun c => c.map (Num.ofInt : Int → Dbl)), c.length = 2 by decide⟩,
    ⟨rfl, rfl, show ∀ i ∈ [0, 1, 2, 3], i < 4 by decide, fun _ _ => ?_⟩, rfl, rfl, by decide +kernel, by decide +kernel⟩
  show ∀ i ∈ [0, 1, 2, 3], ∃ j, Adj exFork.rowPtr exFork.colInd i j
  intro i hi
  simp only [List.mem_cons, List.not_mem_nil, or_false] at hi
  rcases hi with rfl | rfl | rfl | rfl
  · exact ⟨1, adj_iff_rowOf.2 (by decide)⟩
  · exact ⟨0, adj_iff_rowOf.2 (by decide)⟩
  · exact ⟨1, adj_iff_rowOf.2 (by decide)⟩
  · exact ⟨1, adj_iff_rowOf.2 (by decide)⟩

end CoMMA
