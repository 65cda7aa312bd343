import Mathlib.Algebra.Order.Ring.Rat
import Verif.Lemmas.DataUse
import Verif.Props.AfterLines
/-! # C66, C67, C68: which of the data of a call its result depends on -/

set_option linter.unusedSectionVars false

namespace CoMMA

variable {W : Type} [Num W]

/-! ### From the relations between data to the two calls -/

theorem ComparesAlike.before (hW : LawfulLt W) {p q : List W} (h : ComparesAlike p q) : Before q = Before p := by
  have eqv : ∀ a b : W, a = b ↔ (Num.lt a b = false ∧ Num.lt b a = false) := by
    intro a b
    constructor
    · rintro rfl
      exact ⟨hW.irrefl a, hW.irrefl a⟩
    · rintro ⟨h1, h2⟩
      exact hW.total a b h1 h2
  funext i j
  refine propext ⟨?_, ?_⟩
  · rintro ⟨x', y', h1, h2, h3⟩
    have hi := (List.getElem?_eq_some_iff.1 h1).1
    have hj := (List.getElem?_eq_some_iff.1 h2).1
    rw [h.1] at hi hj
    have g1 := List.getElem?_eq_getElem hi
    have g2 := List.getElem?_eq_getElem hj
    refine ⟨_, _, g1, g2, ?_⟩
    have e1 := (h.2 j i _ _ _ _ g2 g1 h2 h1).1
    have e2 := (h.2 i j _ _ _ _ g1 g2 h1 h2).1
    rw [eqv] at h3 ⊢
    rwa [e1, e2] at h3
  · rintro ⟨x, y, g1, g2, h3⟩
    have hi := (List.getElem?_eq_some_iff.1 g1).1
    have hj := (List.getElem?_eq_some_iff.1 g2).1
    rw [← h.1] at hi hj
    have h1 := List.getElem?_eq_getElem hi
    have h2 := List.getElem?_eq_getElem hj
    refine ⟨_, _, h1, h2, ?_⟩
    have e1 := (h.2 j i _ _ _ _ g2 g1 h2 h1).1
    have e2 := (h.2 i j _ _ _ _ g1 g2 h1 h2).1
    rw [eqv] at h3 ⊢
    rwa [e1, e2]

theorem ComparesAlike.front {p q : List W} (h : ComparesAlike p q) (nb : List Nat) : FrontFirst nb q = FrontFirst nb p := by
  funext i j
  refine propext ⟨?_, ?_⟩
  · rintro ⟨bf, bb, x', y', b1, b2, h1, h2, h3⟩
    have hi := (List.getElem?_eq_some_iff.1 h1).1
    have hj := (List.getElem?_eq_some_iff.1 h2).1
    rw [h.1] at hi hj
    have g1 := List.getElem?_eq_getElem hi
    have g2 := List.getElem?_eq_getElem hj
    refine ⟨bf, bb, _, _, b1, b2, g1, g2, ?_⟩
    have e1 := (h.2 j i _ _ _ _ g2 g1 h2 h1).1
    have e2 := (h.2 i j _ _ _ _ g1 g2 h1 h2).2
    rwa [e1, e2] at h3
  · rintro ⟨bf, bb, x, y, b1, b2, g1, g2, h3⟩
    have hi := (List.getElem?_eq_some_iff.1 g1).1
    have hj := (List.getElem?_eq_some_iff.1 g2).1
    rw [← h.1] at hi hj
    have h1 := List.getElem?_eq_getElem hi
    have h2 := List.getElem?_eq_getElem hj
    refine ⟨bf, bb, _, _, b1, b2, h1, h2, ?_⟩
    have e1 := (h.2 j i _ _ _ _ g2 g1 h2 h1).1
    have e2 := (h.2 i j _ _ _ _ g1 g2 h1 h2).2
    rwa [e1, e2]

theorem vec_moved (ht : MovesExactly W) : ∀ (c d t : List W), c.length ≤ t.length → d.length ≤ t.length →
    vecFrom (List.zipWith Num.add c t) (List.zipWith Num.add d t) = vecFrom c d := by
  intro c
  induction c with
  | nil => intro d t _ _; rfl
  | cons x c ih =>
    intro d t h1 h2
    cases d with
    | nil => simp [vecFrom]
    | cons y d =>
      cases t with
      | nil => simp at h1
      | cons z t =>
        have e := ih d t (by simpa using h1) (by simpa using h2)
        unfold vecFrom at e ⊢
        rw [List.zipWith_cons_cons, List.zipWith_cons_cons, List.zipWith_cons_cons, List.zipWith_cons_cons, e, ht]

theorem dist_moved (ht : MovesExactly W) (c d t : List W) (h1 : c.length ≤ t.length) (h2 : d.length ≤ t.length) :
    dist2 (List.zipWith Num.add c t) (List.zipWith Num.add d t) = dist2 c d := by
  have key : ∀ a b : List W, dist2 a b = sumUp ((vecFrom b a).map (fun x => Num.mul x x)) := by
    intro a b
    unfold dist2 vecFrom
    rw [List.map_zipWith, List.zipWith_comm]
  rw [key, key, vec_moved ht d c t h2 h1]

theorem getElem?_moved {t : List W} {cs cs' : List (List W)} (h : Moved t cs cs') (i : Nat) :
    cs'[i]? = cs[i]?.map (fun c => List.zipWith Num.add c t) := by
  rw [h.1, List.getElem?_map]

/-- directions and distances of moved centers -/
theorem Moved.relation {α : Type} {t : List W} {cs cs' : List (List W)} (h : Moved t cs cs')
    (f : List W → List W → α) (hf : ∀ c d, c.length ≤ t.length → d.length ≤ t.length →
      f (List.zipWith Num.add c t) (List.zipWith Num.add d t) = f c d) (i j : Nat) (r : α) :
    (∃ ci cj, cs'[i]? = some ci ∧ cs'[j]? = some cj ∧ r = f ci cj) ↔ ∃ ci cj, cs[i]? = some ci ∧ cs[j]? = some cj ∧ r = f ci cj := by
  rw [getElem?_moved h, getElem?_moved h]
  constructor
  · rintro ⟨ci, cj, h1, h2, h3⟩
    obtain ⟨c, g1, rfl⟩ := Option.map_eq_some_iff.1 h1
    obtain ⟨d, g2, rfl⟩ := Option.map_eq_some_iff.1 h2
    rw [hf c d (le_of_eq (h.2 c (List.mem_of_getElem? g1))) (le_of_eq (h.2 d (List.mem_of_getElem? g2)))] at h3
    exact ⟨c, d, g1, g2, h3⟩
  · rintro ⟨c, d, g1, g2, h3⟩
    rw [g1, g2]
    refine ⟨_, _, rfl, rfl, ?_⟩
    rw [hf c d (le_of_eq (h.2 c (List.mem_of_getElem? g1))) (le_of_eq (h.2 d (List.mem_of_getElem? g2)))]
    exact h3

variable {P : Platform} {a : Args W} {o : Outs} {n : Nat}

theorem validCRS_graphOf (hm : ValidMesh a n) : ValidCRS (graphOf a).nbC (graphOf a).rowPtr (graphOf a).colInd := by
  rw [graphOf_nbC hm]
  exact hm.crs

/-- Other centers with the same mutual distances (turned, if the type of aspect ratio uses the
barycenter), other weights and volumes where the type of aspect ratio does not use them, and
lines that are not built, or grow alike. -/
theorem same_call_turned {D : Nat} {φ : List W → List W} {v w : List W} {x : List (List W)} (hm : ValidMesh a n) (hp : ValidParams P a)
    (hm' : ValidMesh { a with values := v, volumes := w, centers := x } n) (hW : LawfulLt W)
    (hu : UniqueRows a.rowPtr a.colInd) (hl : NoSelfLoop a.rowPtr a.colInd) (hmode : ValidMode (graphOf a) a o n)
    (hv : a.aspect.usesWeights → v = a.values) (hw : a.aspect.usesVolumes → w = a.volumes)
    (hx : a.aspect.geom = true → ∀ i j : Nat, ∀ ci cj ci' cj', a.centers[i]? = some ci → a.centers[j]? = some cj →
      x[i]? = some ci' → x[j]? = some cj' → dist2 ci' cj' = dist2 ci cj)
    (hb : a.aspect.bary = true → TurnsSpace D φ ∧ Turned D φ a.centers x)
    (hlines : a.isAniso = true → a.buildLines = true → IsAnisotropic (graphOf (a.withData v w x a.prio)) = IsAnisotropic (graphOf a) ∧
      ∃ ρ, GrowthAlike ρ (graphOf a) (graphOf (a.withData v w x a.prio)) (meantCoupling a)) :
    agglomerateOneLevel P { a with values := v, volumes := w, centers := x } o = agglomerateOneLevel P a o := by
  have hm2 : ValidMesh (a.withData v w x a.prio) n := hm'
  have hp2 : ValidParams P (a.withData v w x a.prio) :=
    ⟨hp.dim, hp.minCard, hp.goalCard, hp.maxCard, hp.iter, hp.thresh, hp.order, hp.aspect, hp.onePoint⟩
  have hd : DataAlike D φ a.aspect (graphOf a) (graphOf (a.withData v w x a.prio)) := by
    refine ⟨hp.aspect, rfl, rfl, rfl, rfl, rfl, hv, hw, ?_, hb⟩
    intro hk i j ci cj hi hj
    have h1 := rd_ok.1 hi
    have h2 := rd_ok.1 hj
    have l1 := (List.getElem?_eq_some_iff.1 h1).1
    have l2 := (List.getElem?_eq_some_iff.1 h2).1
    have e : x.length = a.centers.length := hm2.centers.trans hm.centers.symm
    have l1' : i < x.length := by rw [e]; exact l1
    have l2' : j < x.length := by rw [e]; exact l2
    have g1 := List.getElem?_eq_getElem l1'
    have g2 := List.getElem?_eq_getElem l2'
    refine ⟨_, _, rd_ok.2 g1, rd_ok.2 g2, ?_⟩
    obtain ⟨D, hD⟩ := hm.coords
    obtain ⟨D', hD'⟩ := hm2.coords
    rw [sqDist_eq (by rw [hD' _ (List.mem_of_getElem? g1), hD' _ (List.mem_of_getElem? g2)]),
      sqDist_eq (by rw [hD _ (List.mem_of_getElem? h1), hD _ (List.mem_of_getElem? h2)]), hx hk i j _ _ _ _ h1 h2 g1 g2]
  exact same_call hm hp hm2 hp2 hW hu hl hmode ⟨rfl, fun _ => rfl, hlines⟩
    (hd.ratios (validCRS_graphOf hm) (meshSizes hm) (meshSizes hm2) P.hash)

/-- Other centers with the same mutual distances, other weights and volumes where the type of
aspect ratio does not use them, and lines that are not built, or grow alike. -/
theorem same_call_data {v w : List W} {x : List (List W)} (hm : ValidMesh a n) (hp : ValidParams P a)
    (hm' : ValidMesh { a with values := v, volumes := w, centers := x } n) (hW : LawfulLt W)
    (hu : UniqueRows a.rowPtr a.colInd) (hl : NoSelfLoop a.rowPtr a.colInd) (hmode : ValidMode (graphOf a) a o n)
    (hv : a.aspect.usesWeights → v = a.values) (hw : a.aspect.usesVolumes → w = a.volumes)
    (hx : a.aspect.geom = true → ∀ i j : Nat, ∀ ci cj ci' cj', a.centers[i]? = some ci → a.centers[j]? = some cj →
      x[i]? = some ci' → x[j]? = some cj' → dist2 ci' cj' = dist2 ci cj)
    (hb : a.aspect.bary = true → x = a.centers)
    (hlines : a.isAniso = true → a.buildLines = true → IsAnisotropic (graphOf (a.withData v w x a.prio)) = IsAnisotropic (graphOf a) ∧
      ∃ ρ, GrowthAlike ρ (graphOf a) (graphOf (a.withData v w x a.prio)) (meantCoupling a)) :
    agglomerateOneLevel P { a with values := v, volumes := w, centers := x } o = agglomerateOneLevel P a o := by
  obtain ⟨D, hD⟩ := hm.coords
  refine same_call_turned (D := D) (φ := id) hm hp hm' hW hu hl hmode hv hw hx (fun h => ⟨.id D, ?_, hD⟩) hlines
  rw [hb h, List.map_id]

/-- **C66.** Only the order of the priorities matters: a call with other priority weights that
compare alike gives exactly the same outputs (or the same error). -/
theorem C66_priority_order {q : List W} (hm : ValidMesh a n) (hp : ValidParams P a) (hp' : ValidParams P { a with prio := q })
    (hW : LawfulLt W) (hu : UniqueRows a.rowPtr a.colInd) (hl : NoSelfLoop a.rowPtr a.colInd)
    (hmode : ValidMode (graphOf a) a o n) (hq : ComparesAlike a.prio q) :
    agglomerateOneLevel P { a with prio := q } o = agglomerateOneLevel P a o := by
  have hm' : ValidMesh (a.withData a.values a.volumes a.centers q) n :=
    ⟨hm.pos, hm.crs, hm.sym, hm.uniq, hm.values, hm.volumes, hm.centers, hq.1.trans hm.prio, hm.bnd, hm.coords⟩
  exact same_call (v := a.values) (w := a.volumes) (x := a.centers) (q := q) hm hp hm' hp' hW hu hl hmode
    ⟨hq.before hW, hq.front, fun _ _ => ⟨rfl, _, .same rfl rfl rfl rfl⟩⟩ (R := Eq) (σ := fun _ => Eq)
    ⟨fun s f hf => ⟨f, hf, rfl⟩, fun c f f' cc n r f1 _ _ hf h => ⟨r, f1, by rw [← hf]; exact h, rfl, rfl⟩, fun _ => .refl⟩

/-- **C67.** Moving the whole mesh does not change the outputs, for all the types of aspect
ratio that do not use the barycenter (the differences of moved coordinates being exact).
Missing: the two types with the barycenter, for which it is false (see
`C67_move_counterexample`). -/
theorem C67_move_partial {t : List W} {x : List (List W)} (hm : ValidMesh a n) (hp : ValidParams P a) (hW : LawfulLt W)
    (hu : UniqueRows a.rowPtr a.colInd) (hl : NoSelfLoop a.rowPtr a.colInd) (hmode : ValidMode (graphOf a) a o n)
    (hk : a.aspect.byDistances) (ht : MovesExactly W) (hx : Moved t a.centers x) :
    agglomerateOneLevel P { a with centers := x } o = agglomerateOneLevel P a o := by
  have hm' : ValidMesh { a with values := a.values, volumes := a.volumes, centers := x } n := by
    refine ⟨hm.pos, hm.crs, hm.sym, hm.uniq, hm.values, hm.volumes, ?_, hm.prio, hm.bnd, t.length, ?_⟩
    · show x.length = n
      rw [hx.1, List.length_map, hm.centers]
    · intro c hc
      have hc' : c ∈ a.centers.map (fun c => List.zipWith Num.add c t) := by rw [← hx.1]; exact hc
      obtain ⟨d, hd, rfl⟩ := List.mem_map.1 hc'
      rw [List.length_zipWith, hx.2 d hd, min_self]
  refine same_call_data hm hp hm' hW hu hl hmode (fun _ => rfl) (fun _ => rfl) ?_ ?_ ?_
  · intro _ i j ci cj ci' cj' h1 h2 g1 g2
    rw [getElem?_moved hx, h1] at g1
    rw [getElem?_moved hx, h2] at g2
    cases g1
    cases g2
    exact dist_moved ht _ _ _ (le_of_eq (hx.2 _ (List.mem_of_getElem? h1))) (le_of_eq (hx.2 _ (List.mem_of_getElem? h2)))
  · intro hb
    rcases hk with ⟨k1, k2⟩
    cases h : a.aspect <;> simp [h, ARKind.bary] at hb k1 k2
  · intro _ _
    refine ⟨rfl, _, .same rfl rfl ?_ ?_⟩
    · funext i j d
      exact propext (Moved.relation hx (fun ci cn => unitFrom cn ci)
        (fun c d h1 h2 => by simp only [unitFrom, vec_moved ht d c t h2 h1]) i j d)
    · funext i j r
      unfold CouplingOf
      cases meantCoupling a with
      | maxWeight => rfl
      | unknown => rfl
      | minDistance =>
        simp only
        refine propext (exists_congr fun k => and_congr Iff.rfl ?_)
        exact Moved.relation hx (fun ci cn => Num.div (Num.ofNat 1) (dist2 ci cn))
          (fun c d h1 h2 => by simp only [dist_moved ht c d t h1 h2]) i j r

/-- **C67.** More generally, when the call does not build lines, the positions of the centers
matter by their mutual distances only (rotations, reflections), for the types of aspect ratio
that do not use the barycenter. -/
theorem C67_distances_partial {x : List (List W)} (hm : ValidMesh a n) (hp : ValidParams P a)
    (hm' : ValidMesh { a with centers := x } n) (hW : LawfulLt W)
    (hu : UniqueRows a.rowPtr a.colInd) (hl : NoSelfLoop a.rowPtr a.colInd) (hmode : ValidMode (graphOf a) a o n)
    (hk : a.aspect.byDistances) (hlines : a.isAniso = false ∨ a.buildLines = false)
    (hx : ∀ i j : Nat, ∀ ci cj ci' cj', a.centers[i]? = some ci → a.centers[j]? = some cj →
      x[i]? = some ci' → x[j]? = some cj' → dist2 ci' cj' = dist2 ci cj) :
    agglomerateOneLevel P { a with centers := x } o = agglomerateOneLevel P a o := by
  refine same_call_data hm hp hm' hW hu hl hmode (fun _ => rfl) (fun _ => rfl) (fun _ => hx) ?_ ?_
  · intro hb
    rcases hk with ⟨k1, k2⟩
    cases h : a.aspect <;> simp [h, ARKind.bary] at hb k1 k2
  · intro h1 h2
    rcases hlines with h | h
    · rw [h1] at h; cases h
    · rw [h2] at h; cases h

/-- **C68.** Data that the type of aspect ratio does not use do not matter: weights of faces,
volumes and centers may be replaced by any others (of the right sizes) where the type does not
use them.  If the call builds lines, weights and centers are used for that. -/
theorem C68_unused_data {v w : List W} {x : List (List W)} (hm : ValidMesh a n) (hp : ValidParams P a)
    (hm' : ValidMesh { a with values := v, volumes := w, centers := x } n) (hW : LawfulLt W)
    (hu : UniqueRows a.rowPtr a.colInd) (hl : NoSelfLoop a.rowPtr a.colInd) (hmode : ValidMode (graphOf a) a o n)
    (hv : a.aspect.usesWeights → v = a.values) (hw : a.aspect.usesVolumes → w = a.volumes)
    (hx : a.aspect.usesCenters → x = a.centers)
    (hlines : a.isAniso = true → a.buildLines = true → v = a.values ∧ x = a.centers) :
    agglomerateOneLevel P { a with values := v, volumes := w, centers := x } o = agglomerateOneLevel P a o := by
  refine same_call_data hm hp hm' hW hu hl hmode hv hw ?_ ?_ ?_
  · intro hk i j ci cj ci' cj' h1 h2 g1 g2
    have hk' : a.aspect.usesCenters := by
      cases h : a.aspect <;> simp [h, ARKind.geom] at hk <;> simp [ARKind.usesCenters]
    rw [hx hk', h1] at g1
    rw [hx hk', h2] at g2
    cases g1
    cases g2
    rfl
  · intro hk
    refine hx ?_
    cases h : a.aspect <;> simp [h, ARKind.bary] at hk <;> simp [ARKind.usesCenters]
  · intro h1 h2
    obtain ⟨rfl, rfl⟩ := hlines h1 h2
    exact ⟨rfl, _, .same rfl rfl rfl rfl⟩

/-! ### The barycenter is not the barycenter -/

/-- exact rational arithmetic (`sqrt` is not used by the calls below) -/
@[reducible] def ratNum : Num Rat where
  lt a b := decide (a < b)
  le a b := decide (a ≤ b)
  eq a b := decide (a = b)
  neg a := -a
  abs a := if a < 0 then -a else a
  add a b := a + b
  sub a b := a - b
  mul a b := a * b
  div a b := a / b
  sqrt a := a
  reduce l := l.foldl (· + ·) 0
  ofNat n := n
  ofInt n := n
  lmin := 1 / 1000000
  lmax := 1000000
  c090 := 9 / 10
  cdev := 9396926207859084 / 10 ^ 16
  ctol := 1 / 10 ^ 12

theorem ratLawful : @LawfulLt Rat ratNum :=
  @LawfulLt.mk Rat ratNum (fun a => by simp [Num.lt])
    (fun a b c => by simp only [Num.lt, decide_eq_true_eq]; exact lt_trans)
    (fun a b => by
      simp only [Num.lt, decide_eq_false_iff_not, not_lt]
      intro h1 h2
      exact le_antisymm h2 h1)

theorem ratMoves : @MovesExactly Rat ratNum := by
  intro x y t
  exact add_sub_add_right_eq_sub x y t

/-- three cells `1 - 0 - 2` of volume two; the ratio of the distance from the barycenter and
the radius is to decide with which neighbour cell 0 is agglomerated -/
def exBary : Args Rat where
  rowPtr := [0, 2, 3, 4]
  colInd := [1, 2, 0, 0]
  values := [1, 1, 1, 1]
  volumes := [2, 2, 2]
  centers := [[0, 0], [1, 0], [0, -2]]
  prio := [3, 2, 1]
  compliant := []
  nBnd := [3, 1, 1]
  buildLines := false
  isAniso := false
  oddLine := false
  thr := 4
  order := .boundary
  correction := false
  dim := 2
  goalCard := 2
  minCard := 2
  maxCard := 2
  aspect := .maxBaryOverRadius
  singThresh := 1
  maxCells := none
  coupling := .maxWeight
  forceDir := true
  fcIter := 1
  nbh := .extended

theorem exBary_crs : ValidCRS 3 exBary.rowPtr exBary.colInd := checkCRS_sound (by decide)

theorem exBary_valid : @ValidMesh Rat ratNum exBary 3 :=
  @ValidMesh.mk Rat ratNum exBary 3 (by decide) exBary_crs (checkSym_sound exBary_crs (by decide))
    (Or.inl (checkUniq_sound exBary_crs (by decide))) rfl rfl rfl rfl rfl ⟨2, by decide +kernel⟩

theorem exBary_params : @ValidParams Rat ratNum exPlatform exBary :=
  @ValidParams.mk Rat ratNum exPlatform exBary (by decide) (by decide) (by decide) (by decide) (by decide) (by decide)
    (by decide) (by decide) (by rintro (h | h) <;> cases h)

/-- **C67 is false with the barycenter**: in exact arithmetic, moving the mesh of three cells by
ten to the right changes the coarse cells.  The code divides the sum of the centers weighted
by volumes by the number of cells instead of the total volume. -/
theorem C67_move_counterexample :
    ∃ (a : Args Rat) (t : List Rat) (x : List (List Rat)) (o : Outs),
      @ValidMesh Rat ratNum a 3 ∧ @ValidParams Rat ratNum exPlatform a ∧ @LawfulLt Rat ratNum ∧ @MovesExactly Rat ratNum ∧
      UniqueRows a.rowPtr a.colInd ∧ NoSelfLoop a.rowPtr a.colInd ∧ a.isAniso = false ∧ a.aspect = .maxBaryOverRadius ∧
      @Moved Rat ratNum t a.centers x ∧
      (@agglomerateOneLevel Rat ratNum exPlatform a o).1.fcToCc = [0, 0, 1] ∧
      (@agglomerateOneLevel Rat ratNum exPlatform { a with centers := x } o).1.fcToCc = [0, 1, 0] :=
  ⟨exBary, [10, 0], [[10, 0], [11, 0], [10, -2]], ⟨[], [], []⟩, exBary_valid, exBary_params, ratLawful, ratMoves,
    checkUniq_sound exBary_crs (by decide), checkNoLoop_sound exBary_crs (by decide), rfl, rfl,
    ⟨by decide +kernel, by decide +kernel⟩, by decide +kernel, by decide +kernel⟩

/-! ### Concrete cases -/

/-- a list compared with its image by a strictly increasing function -/
theorem comparesAlike_map {f : Int → Int} (hf : ∀ x y, f x < f y ↔ x < y) (p : List Int) : ComparesAlike p (p.map f) := by
  refine ⟨List.length_map _, ?_⟩
  intro i j x y x' y' h1 h2 h3 h4
  rw [List.getElem?_map, h1] at h3
  rw [List.getElem?_map, h2] at h4
  cases h3
  cases h4
  have e1 := hf x y
  have e2 := hf y x
  have e3 : f x = f y ↔ x = y := by
    constructor
    · intro h
      by_contra hne
      rcases lt_or_gt_of_ne hne with h' | h'
      · exact absurd (e1.2 h') (by omega)
      · exact absurd (e2.2 h') (by omega)
    · rintro rfl; rfl
  constructor
  · show decide (f x < f y) = decide (x < y)
    rw [decide_eq_decide]; exact e1
  · show decide (f x = f y) = decide (x = y)
    rw [decide_eq_decide]; exact e3

theorem exMoves : MovesExactly Int := by
  intro x y t
  simp only [Num.sub, Num.add]
  omega

/-- a call that builds lines, with other priorities in the same order -/
example := C66_priority_order (q := exBuild.prio.map (fun x => 10 * x + 3)) (o := ⟨[], [], []⟩) exBuild_valid exBuild_params
  ⟨by decide, by decide, by decide, by decide, by decide, by decide, by decide, by decide, by decide⟩ exLawful
  (checkUniq_sound exCols_crs (by decide)) (checkNoLoop_sound exCols_crs (by decide)) (exBuild_mode _)
  (comparesAlike_map (by intros; omega) _)

/-- the same call, moved -/
example := C67_move_partial (t := [5, 7]) (o := ⟨[], [], []⟩) exBuild_valid exBuild_params exLawful
  (checkUniq_sound exCols_crs (by decide)) (checkNoLoop_sound exCols_crs (by decide)) (exBuild_mode _)
  ⟨by decide, by decide⟩ exMoves ⟨rfl, by decide⟩

theorem exRow_turned : ValidMesh { exRow with centers := [[0, 0], [0, 1], [0, 2]] } 3 :=
  ⟨exRow_valid.pos, exRow_valid.crs, exRow_valid.sym, exRow_valid.uniq, exRow_valid.values, exRow_valid.volumes, rfl,
    exRow_valid.prio, exRow_valid.bnd, 2, by decide⟩

/-- the mesh turned by a right angle -/
example := C67_distances_partial (o := ⟨[], [], []⟩) exRow_valid exRow_params exRow_turned exLawful exRow_uniq exRow_loop
  (exRow_mode _) ⟨by decide, by decide⟩ (Or.inl rfl) (by
    intro i j ci cj ci' cj' h1 h2 h3 h4
    have hi : i < 3 := (List.getElem?_eq_some_iff.1 h1).1
    have hj : j < 3 := (List.getElem?_eq_some_iff.1 h2).1
    have key : ∀ i < 3, ∀ j < 3, dist2 (([[0, 0], [0, 1], [0, 2]] : List (List Int)).getD i []) (([[0, 0], [0, 1], [0, 2]] : List (List Int)).getD j []) =
      dist2 (exRow.centers.getD i []) (exRow.centers.getD j []) := by decide
    have := key i hi j hj
    simpa only [List.getD_eq_getElem?_getD, h1, h2, h3, h4, Option.getD_some] using this)

/-- the type of aspect ratio of the example does not use the weights of the faces -/
example := C68_unused_data (v := [8, 3, 1, 0]) (o := ⟨[], [], []⟩) exRow_valid exRow_params
  ⟨exRow_valid.pos, exRow_valid.crs, exRow_valid.sym, exRow_valid.uniq, rfl, exRow_valid.volumes, exRow_valid.centers,
    exRow_valid.prio, exRow_valid.bnd, exRow_valid.coords⟩ exLawful exRow_uniq exRow_loop (exRow_mode _)
  (fun h => absurd h (by simp [ARKind.usesWeights, exRow, exArgs3, exArgs])) (fun _ => rfl) (fun _ => rfl) (fun h => by cases h)

end CoMMA
