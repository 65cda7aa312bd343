import Verif.Lemmas.DataUse
import Verif.Spec.Units
/-! # Features, couplings and directions in other units -/

set_option linter.unusedSectionVars false

namespace CoMMA

variable {W : Type} [Num W]

/-! ## Functions that keep comparisons and zero -/

/-- comparisons and zero are kept -/
structure Keeps (φ : W → W) : Prop where
  lt : ∀ x y, Num.lt (φ x) (φ y) = Num.lt x y
  zero : φ (Num.ofNat 0) = Num.ofNat 0

theorem Keeps.id : Keeps (fun x : W => x) := ⟨fun _ _ => rfl, rfl⟩

theorem Keeps.comp {φ ψ : W → W} (h1 : Keeps φ) (h2 : Keeps ψ) : Keeps (fun x => φ (ψ x)) :=
  ⟨fun x y => by rw [h1.lt, h2.lt], by rw [h2.zero, h1.zero]⟩

theorem Rescales.keeps {s t : W → W} (h : Rescales s t) : Keeps s := ⟨h.lt, h.zero⟩

theorem Keeps.alike {φ : W → W} (h : Keeps φ) : OrderAlike (fun x y => y = φ x) :=
  ⟨fun x x' y y' h1 h2 => by rw [h1, h2, h.lt], h.zero.symm⟩

/-! ## Sums and distances -/

variable {s t : W → W}

theorem Rescales.foldl (h : Rescales s t) : ∀ (l : List W) (a : W), (l.map s).foldl Num.add (s a) = s (l.foldl Num.add a) := by
  intro l
  induction l with
  | nil => intro a; rfl
  | cons x l ih =>
    intro a
    rw [List.map_cons, List.foldl_cons, List.foldl_cons, h.add, ih]

theorem Rescales.sum (h : Rescales s t) (l : List W) : (l.map s).foldl Num.add (Num.ofNat 0) = s (l.foldl Num.add (Num.ofNat 0)) := by
  have := h.foldl l (Num.ofNat 0)
  rwa [h.zero] at this

theorem Rescales.vec (h : Rescales s t) (c d : List W) : vecFrom (c.map s) (d.map s) = (vecFrom c d).map s := by
  unfold vecFrom
  rw [List.zipWith_map, List.map_zipWith]
  congr 1
  funext x y
  exact h.sub y x

theorem Rescales.scalar (h : Rescales s t) (c d : List W) : CoMMA.scalar (c.map s) (d.map s) = s (s (CoMMA.scalar c d)) := by
  have e : List.zipWith Num.mul (c.map s) (d.map s) = ((List.zipWith Num.mul c d).map s).map s := by
    rw [List.zipWith_map, List.map_map, List.map_zipWith]
    congr 1
    funext x y
    show Num.mul (s x) (s y) = s (s (Num.mul x y))
    rw [h.mulLeft, h.mulRight]
  unfold CoMMA.scalar sumUp
  rw [e, h.sum, h.sum]

theorem Rescales.dist (h : Rescales s t) (c d : List W) : dist2 (c.map s) (d.map s) = s (s (dist2 c d)) := by
  have e : List.zipWith (fun x y => Num.mul (Num.sub x y) (Num.sub x y)) (c.map s) (d.map s) =
      ((List.zipWith (fun x y : W => Num.mul (Num.sub x y) (Num.sub x y)) c d).map s).map s := by
    rw [List.zipWith_map, List.map_map, List.map_zipWith]
    congr 1
    funext x y
    show Num.mul (Num.sub (s x) (s y)) (Num.sub (s x) (s y)) = s (s _)
    rw [h.sub, h.mulLeft, h.mulRight]
  unfold dist2 sumUp
  rw [e, h.sum, h.sum]

theorem UnitChange.unit (h : UnitChange s t) (hq : RootScales s) (c d : List W) : unitFrom (c.map s) (d.map s) = unitFrom c d := by
  unfold unitFrom
  rw [h.1.vec, h.1.scalar, hq, h.1.divRight, List.map_map]
  congr 1
  funext x
  show Num.mul (s x) (t _) = _
  rw [h.1.mulLeft, h.2.mulRight, h.1.inv]

/-! ## Features -/

/-- the distances kept are those in the other unit, or still the ones to start from -/
def GeomScaled (r : W → W) (f f' : Feats W) : Prop :=
  (f'.sqDiam = r (r f.sqDiam) ∧ f'.sqMin = r (r f.sqMin)) ∨
    (f.sqDiam = Num.lmin ∧ f'.sqDiam = Num.lmin ∧ f.sqMin = Num.lmax ∧ f'.sqMin = Num.lmax)

/-- features in other units -/
structure FeatsScaled (kind : ARKind) (s u r : W → W) (f f' : Feats W) : Prop where
  measure : f'.measure = u f.measure
  ext : f'.ext = s f.ext
  int : f'.int = s f.int
  geom : kind.geom = true → GeomScaled r f f'

/-- `g'` is `g` in other units -/
structure GraphScaled (s u r : W → W) (g g' : Graph W) : Prop where
  nbC : g'.nbC = g.nbC
  rowPtr : g'.rowPtr = g.rowPtr
  colInd : g'.colInd = g.colInd
  nBnd : g'.nBnd = g.nBnd
  dim : g'.dim = g.dim
  values : g'.values = g.values.map s
  volumes : g'.volumes = g.volumes.map u
  centers : g'.centers = g.centers.map (fun c => c.map r)

variable {g g' : Graph W} {kind : ARKind} {u u' r r' : W → W}

theorem rd_map {α β : Type} {v : List α} {i : Nat} {x : α} (φ : α → β) (h : rd v i = .ok x) : rd (v.map φ) i = .ok (φ x) := by
  rw [rd_ok] at h ⊢
  rw [List.getElem?_map, h]
  rfl

theorem GraphScaled.weights (h : GraphScaled s u r g g') {i : Nat} {ws : List W} (hw : g.weights i = .ok ws) :
    g'.weights i = .ok (ws.map s) := by
  unfold Graph.weights rowM at hw ⊢
  rw [h.rowPtr, h.values]
  obtain ⟨b, hb, hw⟩ := bind_ok_iff.1 hw
  obtain ⟨e, he, hw⟩ := bind_ok_iff.1 hw
  rw [hb, ok_bind, he, ok_bind]
  unfold slice at hw ⊢
  rw [List.length_map]
  split at hw
  · rename_i hc
    rw [if_pos hc]
    cases hw
    simp [List.map_drop, List.map_take]
  · cases hw

theorem GraphScaled.totalWeight (h : GraphScaled s u r g g') (hs : Rescales s t) {i : Nat} {x : W}
    (hx : g.totalWeight i = .ok x) : g'.totalWeight i = .ok (s x) := by
  unfold Graph.totalWeight at hx ⊢
  obtain ⟨ws, h1, hx⟩ := bind_ok_iff.1 hx
  obtain ⟨b, h2, hx⟩ := bind_ok_iff.1 hx
  cases hx
  have e1 : Num.reduce (ws.map s) = s (Num.reduce ws) := hs.reduce ws
  have hb : g'.boundaryWeight i = .ok (s b) := by
    unfold Graph.boundaryWeight at h2 ⊢
    obtain ⟨k, h3, h2⟩ := bind_ok_iff.1 h2
    rw [h.nBnd, h3, ok_bind]
    by_cases hk : k = 0
    · rw [if_pos hk] at h2 ⊢
      cases h2
      rw [hs.zero]
      rfl
    · rw [if_neg hk] at h2 ⊢
      obtain ⟨ws', h4, h2⟩ := bind_ok_iff.1 h2
      rw [h1] at h4
      cases h4
      obtain ⟨n, h5, h2⟩ := bind_ok_iff.1 h2
      cases h2
      rw [h.weights h1, ok_bind]
      have : g'.nbNeighs i = .ok n := by
        rw [← h5]
        unfold Graph.nbNeighs
        rw [h.rowPtr]
      rw [this, ok_bind, e1, hs.mulRight, hs.divLeft]
      rfl
  rw [h.weights h1, ok_bind, hb, ok_bind, e1, hs.add]
  rfl

theorem shared_scaled (hs : Rescales s t) {i : Nat} {cc : NSet} :
    ∀ (row : List Nat) (ws : List W) (a : W × NSet),
      (row.zip (ws.map s)).foldl (fun (a : W × NSet) e => if e.1 ≠ i ∧ cc.has e.1 = true then (Num.add a.1 e.2, a.2.insert e.1) else a)
        (s a.1, a.2) =
      (let q := (row.zip ws).foldl (fun (a : W × NSet) e => if e.1 ≠ i ∧ cc.has e.1 = true then (Num.add a.1 e.2, a.2.insert e.1) else a) a
       (s q.1, q.2)) := by
  intro row
  induction row with
  | nil => intro ws a; rfl
  | cons y row ih =>
    intro ws a
    cases ws with
    | nil => rfl
    | cons w ws =>
      simp only [List.map_cons, List.zip_cons_cons, List.foldl_cons]
      by_cases hc : y ≠ i ∧ cc.has y = true
      · rw [if_pos hc, if_pos hc, hs.add]
        exact ih ws (Num.add a.1 w, a.2.insert y)
      · rw [if_neg hc, if_neg hc]
        exact ih ws _

theorem GraphScaled.shared (h : GraphScaled s u r g g') (hs : Rescales s t) {i : Nat} {cc : NSet} {q : W × NSet}
    (hq : sharedFaces g i cc = .ok q) : sharedFaces g' i cc = .ok (s q.1, q.2) := by
  unfold sharedFaces at hq ⊢
  obtain ⟨row, h1, hq⟩ := bind_ok_iff.1 hq
  obtain ⟨ws, h2, hq⟩ := bind_ok_iff.1 hq
  cases hq
  have : g'.neighs i = .ok row := by
    rw [← h1]
    unfold Graph.neighs
    rw [h.rowPtr, h.colInd]
  rw [this, ok_bind, h.weights h2, ok_bind]
  have e := shared_scaled hs (i := i) (cc := cc) row ws (Num.ofNat 0, NSet.empty)
  simp only [hs.zero] at e
  rw [e]
  rfl

theorem GraphScaled.basic (h : GraphScaled s u r g g') (hs : Rescales s t) (hu : Rescales u u') {cw : Bool} {i : Nat}
    {f f' : Feats W} (hf : FeatsScaled kind s u r f f') {cc : NSet} {n : Nat} {f1 : Feats W}
    (hb : updateBasic cw false g i f cc = .ok (n, f1)) :
    ∃ f1', updateBasic cw false g' i f' cc = .ok (n, f1') ∧ f1'.measure = u f1.measure ∧ f1'.ext = s f1.ext ∧
      f1'.int = s f1.int := by
  unfold updateBasic at hb ⊢
  obtain ⟨v, hv, hb⟩ := bind_ok_iff.1 hb
  obtain ⟨q, hq, hb⟩ := bind_ok_iff.1 hb
  obtain ⟨d, hd, hb⟩ := bind_ok_iff.1 hb
  rw [if_neg (by simp)] at hb
  cases hb
  rw [h.volumes, rd_map u hv, ok_bind, h.shared hs hq, ok_bind]
  unfold withWeights at hd ⊢
  have hmeas : Num.add f'.measure (u v) = u (Num.add f.measure v) := by rw [hf.measure, hu.add]
  cases cw with
  | false =>
    rw [if_neg (by simp)] at hd ⊢
    cases hd
    exact ⟨_, rfl, hmeas, hs.zero.symm, hs.zero.symm⟩
  | true =>
    rw [if_pos rfl] at hd ⊢
    unfold updateWeights at hd ⊢
    obtain ⟨p, hp, hd⟩ := bind_ok_iff.1 hd
    obtain ⟨w, hw, hp⟩ := bind_ok_iff.1 hp
    cases hp
    cases hd
    rw [h.totalWeight hs hw]
    refine ⟨_, rfl, hmeas, ?_, ?_⟩
    · show Num.sub (Num.add f'.ext (s w)) (Num.mul (Num.ofNat 2) (s q.1)) = s (Num.sub (Num.add f.ext w) (Num.mul (Num.ofNat 2) q.1))
      rw [hf.ext, hs.add, hs.mulRight, hs.sub]
    · show Num.add f'.int (s q.1) = s (Num.add f.int q.1)
      rw [hf.int, hs.add]

theorem FeatsScaled.init (h : GraphScaled s u r g g') (hs : Rescales s t) {i : Nat} {f : Feats W}
    (hf : Feats.init g i = .ok f) : ∃ f', Feats.init g' i = .ok f' ∧ FeatsScaled kind s u r f f' := by
  unfold Feats.init at hf ⊢
  obtain ⟨v, hv, hf⟩ := bind_ok_iff.1 hf
  obtain ⟨e, he, hf⟩ := bind_ok_iff.1 hf
  obtain ⟨n, hn, hf⟩ := bind_ok_iff.1 hf
  obtain ⟨c, hc, hf⟩ := bind_ok_iff.1 hf
  cases hf
  have : g'.totalFaces i = .ok n := by
    rw [← hn]
    unfold Graph.totalFaces Graph.nbNeighs
    rw [h.nBnd, h.rowPtr]
  rw [h.volumes, rd_map u hv, ok_bind, h.totalWeight hs he, ok_bind, this, ok_bind, h.centers, rd_map _ hc]
  exact ⟨_, rfl, rfl, rfl, hs.zero.symm, fun _ => Or.inr ⟨rfl, rfl, rfl, rfl⟩⟩

/-- the squared distances of cells in range, before and after the change of unit -/
theorem GraphScaled.geometry (h : GraphScaled s u r g g') (hr : Rescales r r') (hm : MeshSizes g)
    (h1 : DistancesInRange g.centers) (h2 : DistancesInRange g'.centers) {hs : Hash} {i : Nat} {f f' : Feats W}
    (hf : GeomScaled r f f') {cc : NSet} (hcc : 0 < cc.card) (hi : i ∉ cc) {y : W × W} (hb : updateGeom g hs i f cc = .ok y) :
    updateGeom g' hs i f' cc = .ok (r (r y.1), r (r y.2)) := by
  unfold updateGeom at hb ⊢
  obtain ⟨c, hc, hb⟩ := bind_ok_iff.1 hb
  rw [h.centers, rd_map _ hc, ok_bind]
  have hne : hs.ord 4 cc.elems ≠ [] := by
    intro he
    have := (hs.perm 4 cc.elems).length_eq
    rw [he] at this
    unfold NSet.card at hcc
    simp at this
    omega
  have hmem : ∀ x ∈ hs.ord 4 cc.elems, x ≠ i := by
    intro x hx hxi
    have := (hs.perm 4 cc.elems).mem_iff.1 hx
    rw [hxi] at this
    exact hi this
  obtain ⟨D, hD⟩ := hm.coords
  -- one step
  have one : ∀ x ∈ hs.ord 4 cc.elems, ∀ cx, rd g.centers x = .ok cx → ∃ d, sqDist c cx = .ok d ∧
      sqDist (c.map r) (cx.map r) = .ok (r (r d)) ∧ Num.lt Num.lmin d = true ∧ Num.lt d Num.lmax = true ∧
      Num.lt Num.lmin (r (r d)) = true ∧ Num.lt (r (r d)) Num.lmax = true := by
    intro x hx cx hcx
    have e1 := rd_ok.1 hc
    have e2 := rd_ok.1 hcx
    have hlen : cx.length = c.length := by
      rw [hD _ (List.mem_of_getElem? e1), hD _ (List.mem_of_getElem? e2)]
    obtain ⟨g1, g2⟩ := h1 i x c cx (fun e => hmem x hx e.symm) e1 e2
    have e1' : g'.centers[i]? = some (c.map r) := by rw [h.centers, List.getElem?_map, e1]; rfl
    have e2' : g'.centers[x]? = some (cx.map r) := by rw [h.centers, List.getElem?_map, e2]; rfl
    obtain ⟨g3, g4⟩ := h2 i x _ _ (fun e => hmem x hx e.symm) e1' e2'
    rw [hr.dist] at g3 g4
    exact ⟨_, sqDist_eq hlen, by rw [sqDist_eq (by simp [hlen]), hr.dist], g1, g2, g3, g4⟩
  have hlt : ∀ x y, Num.lt (r (r x)) (r (r y)) = Num.lt x y := fun x y => by rw [hr.lt, hr.lt]
  -- from scaled values
  have scaled : ∀ (l : List Nat), (∀ x ∈ l, x ∈ hs.ord 4 cc.elems) → ∀ (p y : W × W),
      l.foldlM (fun (a : W × W) x => do
        let cx ← rd g.centers x
        let dist ← sqDist c cx
        pure (if Num.lt a.1 dist then dist else a.1, if Num.lt dist a.2 then dist else a.2)) p = .ok y →
      l.foldlM (fun (a : W × W) x => do
        let cx ← rd (g.centers.map (fun c => c.map r)) x
        let dist ← sqDist (c.map r) cx
        pure (if Num.lt a.1 dist then dist else a.1, if Num.lt dist a.2 then dist else a.2)) (r (r p.1), r (r p.2)) =
        (.ok (r (r y.1), r (r y.2)) : M (W × W)) := by
    intro l
    induction l with
    | nil => intro _ p y hy; cases hy; rfl
    | cons x l ih =>
      intro hl p y hy
      rw [List.foldlM_cons] at hy ⊢
      obtain ⟨p1, hp1, hy⟩ := bind_ok_iff.1 hy
      obtain ⟨cx, hcx, hp1⟩ := bind_ok_iff.1 hp1
      obtain ⟨d, hd, hd', _⟩ := one x (hl x (by simp)) cx hcx
      rw [hd, ok_bind] at hp1
      cases hp1
      rw [rd_map _ hcx, ok_bind, hd', ok_bind]
      have := ih (fun x hx => hl x (by simp [hx])) _ y hy
      rw [pure_bind, ← this]
      congr 1
      rw [hlt, hlt]
      congr 1 <;> split <;> rfl
  revert hb
  generalize hl : hs.ord 4 cc.elems = l at *
  intro hb
  rcases hf with ⟨e1, e2⟩ | ⟨e1, e2, e3, e4⟩
  · rw [e1, e2]
    exact scaled l (fun x hx => hx) (f.sqDiam, f.sqMin) y hb
  · cases l with
    | nil => exact absurd rfl hne
    | cons x l =>
      rw [e1, e3] at hb
      rw [e2, e4]
      rw [List.foldlM_cons] at hb ⊢
      obtain ⟨p1, hp1, hb⟩ := bind_ok_iff.1 hb
      obtain ⟨cx, hcx, hp1⟩ := bind_ok_iff.1 hp1
      obtain ⟨d, hd, hd', k1, k2, k3, k4⟩ := one x (by simp) cx hcx
      rw [hd, ok_bind] at hp1
      simp only [k1, k2, if_true] at hp1
      cases hp1
      rw [rd_map _ hcx, ok_bind, hd', ok_bind]
      simp only [k3, k4, if_true]
      rw [pure_bind]
      exact scaled l (fun x hx => by simp [hx]) (d, d) y hb

/-- how the aspect ratio of a coarse cell to be made of `k + 1` cells changes with the units -/
def ratioScale (dim : Nat) (kind : ARKind) (s s' u' r : W → W) (k : Nat) (x : W) : W :=
  match kind with
  | .diamOverRadius => if dim = 2 then r (r (u' x)) else r (r (r (r (r (r (u' (u' x)))))))
  | .diamOverMinEdge => if k = 1 then r (r x) else x
  | .diameter => r (r x)
  | .overMeasure => u' x
  | .overInternal => s' x
  | .perimOverRadius => if dim = 2 then s (s (u' x)) else s (s (s (u' (u' x))))
  | .external => s x
  | .algebraic => s (u' x)
  | _ => x

theorem ratioScale_keeps (hs : Keeps s) (hs' : Keeps t) (hu : Keeps u') (hr : Keeps r) (dim k : Nat) :
    Keeps (ratioScale dim kind s t u' r k) := by
  unfold ratioScale
  cases kind <;> simp only
  · split
    · exact hr.comp (hr.comp hu)
    · exact hr.comp (hr.comp (hr.comp (hr.comp (hr.comp (hr.comp (hu.comp hu))))))
  · split
    · exact hr.comp hr
    · exact .id
  · exact hr.comp hr
  · exact hu
  · exact hs'
  · split
    · exact hs.comp (hs.comp hu)
    · exact hs.comp (hs.comp (hs.comp (hu.comp hu)))
  · exact hs
  · exact .id
  · exact .id
  · exact hs.comp hu
  · exact .id

theorem arValue_scaled (hs : Rescales s t) (hu : Rescales u u') (hr : UnitChange r r') (hb : kind.bary = false)
    (hk : kind ≠ .unknown) {dim : Nat} {cc : NSet} {f f' : Feats W} (hm : f'.measure = u f.measure) (he : f'.ext = s f.ext)
    (hi : f'.int = s f.int) (hg : kind.geom = true → f'.sqDiam = r (r f.sqDiam) ∧ f'.sqMin = r (r f.sqMin)) :
    arValue dim kind cc f' = ratioScale dim kind s t u' r cc.card (arValue dim kind cc f) := by
  have hr1 := hr.1
  have hr2 := hr.2
  unfold arValue ratioScale xOverRadius
  cases kind <;> simp [ARKind.bary] at hb hk <;> simp only [ARKind.geom, forall_const] at hg <;> simp only [hm, he, hi, hg]
  · split
    · rw [hr1.divLeft, hr1.divLeft, hu.divRight]
    · simp only [hr1.mulLeft, hr1.mulRight]
      rw [hu.mulLeft, hu.mulRight, hr1.divLeft, hr1.divLeft, hr1.divLeft, hr1.divLeft, hr1.divLeft, hr1.divLeft, hu.divRight,
        hu.divRight]
  · split
    · rfl
    · rw [hr1.divRight, hr1.divRight, hr1.divLeft, hr1.divLeft, hr2.inv, hr2.inv]
  · rw [hu.divRight]
  · rw [hs.divRight]
  · split
    · rw [hs.mulLeft, hs.mulRight, hs.divLeft, hs.divLeft, hu.divRight]
    · simp only [hs.mulLeft, hs.mulRight]
      rw [hu.mulLeft, hu.mulRight, hs.divLeft, hs.divLeft, hs.divLeft, hu.divRight, hu.divRight]
  · rw [hs.divLeft, hu.divRight]

theorem GraphScaled.ratios (h : GraphScaled s u r g g') (hs : UnitChange s t) (hu : UnitChange u u') (hr : UnitChange r r')
    (hm : MeshSizes g) (hb : kind.bary = false) (hk : kind ≠ .unknown)
    (hd : kind.geom = true → DistancesInRange g.centers ∧ DistancesInRange g'.centers) (hh : Hash) :
    RatiosAlike (FeatsScaled kind s u r) (fun k x y => y = ratioScale g.dim kind s t u' r k x) (arOf g hh kind) (arOf g' hh kind) := by
  refine ⟨fun x f hf => FeatsScaled.init h hs.1 hf, ?_, fun k => (ratioScale_keeps hs.1.keeps hs.2.keeps hu.2.keeps hr.1.keeps _ k).alike⟩
  intro i f f' cc n x f1 hcc hi hf hstep
  simp only [arOf] at hstep ⊢
  rw [if_neg (by rw [hb]; simp)] at hstep ⊢
  by_cases hg : kind.geom = true
  · rw [if_pos hg] at hstep ⊢
    obtain ⟨hd1, hd2⟩ := hd hg
    unfold arGeom at hstep ⊢
    obtain ⟨⟨n1, b1⟩, h1, hstep⟩ := bind_ok_iff.1 hstep
    obtain ⟨b1', h1', k1, k2, k3⟩ := h.basic hs.1 hu.1 hf h1
    rw [h1', ok_bind]
    obtain ⟨y, hy, hstep⟩ := bind_ok_iff.1 hstep
    rw [h.geometry hr.1 hm hd1 hd2 (hf.geom hg) hcc hi hy, ok_bind]
    cases hstep
    refine ⟨_, _, rfl, ?_, k1, k2, k3, fun _ => Or.inl ⟨rfl, rfl⟩⟩
    rw [h.dim]
    exact arValue_scaled hs.1 hu.1 hr hb hk k1 k2 k3 (fun _ => ⟨rfl, rfl⟩)
  · rw [if_neg hg] at hstep ⊢
    unfold arPlain at hstep ⊢
    obtain ⟨⟨n1, b1⟩, h1, hstep⟩ := bind_ok_iff.1 hstep
    obtain ⟨b1', h1', k1, k2, k3⟩ := h.basic hs.1 hu.1 hf h1
    rw [h1', ok_bind]
    cases hstep
    refine ⟨_, _, rfl, ?_, k1, k2, k3, fun h => absurd h hg⟩
    rw [h.dim]
    exact arValue_scaled hs.1 hu.1 hr hb hk k1 k2 k3 (fun h => absurd h hg)

/-! ## Lines -/

theorem map_back {α : Type} {φ ψ : α → α} (h : ∀ x, ψ (φ x) = x) (l : List α) : (l.map φ).map ψ = l := by
  rw [List.map_map]
  conv_rhs => rw [← List.map_id l]
  congr 1
  funext x
  exact h x

theorem GraphScaled.symm (h : GraphScaled s u r g g') (hs : UnitChange s t) (hu : UnitChange u u') (hr : UnitChange r r') :
    GraphScaled t u' r' g' g where
  nbC := h.nbC.symm
  rowPtr := h.rowPtr.symm
  colInd := h.colInd.symm
  nBnd := h.nBnd.symm
  dim := h.dim.symm
  values := by rw [h.values, map_back hs.2.inv]
  volumes := by rw [h.volumes, map_back hu.2.inv]
  centers := by rw [h.centers, map_back (fun c => map_back hr.2.inv c)]

theorem GraphScaled.face (h : GraphScaled s u r g g') {i : Nat} {w' : W} :
    FaceWeight g' i w' ↔ ∃ w, FaceWeight g i w ∧ w' = s w := by
  unfold FaceWeight
  rw [h.rowPtr, h.colInd, h.values]
  constructor
  · rintro ⟨b, e, k, n, h1, h2, h3, h4, h5, h6, h7⟩
    rw [List.getElem?_map, Option.map_eq_some_iff] at h7
    obtain ⟨w, h7, rfl⟩ := h7
    exact ⟨w, ⟨b, e, k, n, h1, h2, h3, h4, h5, h6, h7⟩, rfl⟩
  · rintro ⟨w, ⟨b, e, k, n, h1, h2, h3, h4, h5, h6, h7⟩, rfl⟩
    exact ⟨b, e, k, n, h1, h2, h3, h4, h5, h6, by rw [List.getElem?_map, h7]; rfl⟩

theorem FaceWeight.mem {i : Nat} {w : W} (h : FaceWeight g i w) : w ∈ g.values := by
  obtain ⟨_, _, _, _, _, _, _, _, _, _, h7⟩ := h
  exact List.mem_of_getElem? h7

theorem GraphScaled.range (h : GraphScaled s u r g g') (hs : UnitChange s t) (hW : LawfulLt W) (h1 : WeightsInRange g.values)
    (h2 : WeightsInRange g'.values) {i : Nat} {mn mx : W} (hr : WeightRange g i mn mx) :
    ∃ mn' mx', WeightRange g' i mn' mx' ∧ Num.div mx' mn' = Num.div mx mn := by
  obtain ⟨a1, a2, a3, a4, a5, a6⟩ := hr
  by_cases hf : ∃ w, FaceWeight g i w
  · have hmn : FaceWeight g i mn := by
      rcases a2 with rfl | a2
      · obtain ⟨w, hw⟩ := hf
        have := hW.total _ _ (a1 w hw) (h1 w hw.mem)
        rw [← this]
        exact hw
      · exact a2
    refine ⟨s mn, s mx, ⟨?_, Or.inr (h.face.2 ⟨mn, hmn, rfl⟩), h2 _ (h.face.2 ⟨mn, hmn, rfl⟩).mem, ?_, ?_, ?_⟩, ?_⟩
    · intro w' hw'
      obtain ⟨w, hw, rfl⟩ := h.face.1 hw'
      rw [hs.1.lt]
      exact a1 w hw
    · intro w' hw'
      obtain ⟨w, hw, rfl⟩ := h.face.1 hw'
      rw [hs.1.lt]
      exact a4 w hw
    · rcases a5 with rfl | a5
      · exact Or.inl hs.1.zero
      · exact Or.inr (h.face.2 ⟨mx, a5, rfl⟩)
    · have := hs.1.lt mx (Num.ofNat 0)
      rw [hs.1.zero] at this
      rw [this]
      exact a6
    · rw [hs.1.divLeft, hs.1.divRight, hs.1.inv]
  · have e1 : mn = Num.lmax := by
      rcases a2 with h | h
      · exact h
      · exact absurd ⟨_, h⟩ hf
    have e2 : mx = Num.ofNat 0 := by
      rcases a5 with h | h
      · exact h
      · exact absurd ⟨_, h⟩ hf
    have hf' : ∀ w', ¬ FaceWeight g' i w' := by
      intro w' hw'
      obtain ⟨w, hw, _⟩ := h.face.1 hw'
      exact hf ⟨w, hw⟩
    exact ⟨mn, mx, ⟨fun w hw => absurd hw (hf' w), Or.inl e1, a3, fun w hw => absurd hw (hf' w), Or.inl e2, a6⟩, rfl⟩

theorem GraphScaled.tagged (h : GraphScaled s u r g g') (hs : UnitChange s t) (hu : UnitChange u u') (hr : UnitChange r r')
    (hW : LawfulLt W) (h1 : WeightsInRange g.values) (h2 : WeightsInRange g'.values) : IsAnisotropic g' = IsAnisotropic g := by
  funext thr i
  unfold IsAnisotropic
  rw [h.dim]
  refine propext (or_congr Iff.rfl ⟨?_, ?_⟩)
  · rintro ⟨mn, mx, g1, g2⟩
    obtain ⟨mn', mx', g3, g4⟩ := (h.symm hs hu hr).range ⟨hs.2, hs.1⟩ hW h2 h1 g1
    exact ⟨mn', mx', g3, by rw [g4]; exact g2⟩
  · rintro ⟨mn, mx, g1, g2⟩
    obtain ⟨mn', mx', g3, g4⟩ := h.range hs hW h1 h2 g1
    exact ⟨mn', mx', g3, by rw [g4]; exact g2⟩

theorem GraphScaled.stepDir (h : GraphScaled s u r g g') (hr : UnitChange r r') (hq : RootScales r) : StepDir g' = StepDir g := by
  funext i n d
  unfold StepDir
  rw [h.centers]
  refine propext ⟨?_, ?_⟩
  · rintro ⟨ci, cn, h1, h2, rfl⟩
    rw [List.getElem?_map, Option.map_eq_some_iff] at h1 h2
    obtain ⟨ci, h1, rfl⟩ := h1
    obtain ⟨cn, h2, rfl⟩ := h2
    exact ⟨ci, cn, h1, h2, hr.unit hq _ _⟩
  · rintro ⟨ci, cn, h1, h2, rfl⟩
    exact ⟨ci.map r, cn.map r, by rw [List.getElem?_map, h1]; rfl, by rw [List.getElem?_map, h2]; rfl, (hr.unit hq _ _).symm⟩

/-- how the couplings change with the units -/
def couplingScale (coupling : Coupling) (s r' : W → W) (x : W) : W :=
  match coupling with
  | .maxWeight => s x
  | .minDistance => r' (r' x)
  | .unknown => x

theorem GraphScaled.coupling (h : GraphScaled s u r g g') (hr : Rescales r r') {coupling : Coupling} {i n : Nat} {w' : W} :
    CouplingOf g' coupling i n w' ↔ ∃ w, w' = couplingScale coupling s r' w ∧ CouplingOf g coupling i n w := by
  unfold CouplingOf FaceAt couplingScale
  rw [h.rowPtr, h.colInd, h.values, h.centers]
  cases coupling with
  | maxWeight =>
    simp only
    constructor
    · rintro ⟨k, hk, hw⟩
      rw [List.getElem?_map, Option.map_eq_some_iff] at hw
      obtain ⟨w, hw, rfl⟩ := hw
      exact ⟨w, rfl, k, hk, hw⟩
    · rintro ⟨w, rfl, k, hk, hw⟩
      exact ⟨k, hk, by rw [List.getElem?_map, hw]; rfl⟩
  | minDistance =>
    simp only
    constructor
    · rintro ⟨k, hk, ci, cn, h1, h2, rfl⟩
      rw [List.getElem?_map, Option.map_eq_some_iff] at h1 h2
      obtain ⟨ci, h1, rfl⟩ := h1
      obtain ⟨cn, h2, rfl⟩ := h2
      exact ⟨_, by rw [hr.dist, hr.divRight, hr.divRight], k, hk, ci, cn, h1, h2, rfl⟩
    · rintro ⟨w, rfl, k, hk, ci, cn, h1, h2, rfl⟩
      exact ⟨k, hk, ci.map r, cn.map r, by rw [List.getElem?_map, h1]; rfl, by rw [List.getElem?_map, h2]; rfl,
        by rw [hr.dist, hr.divRight, hr.divRight]⟩
  | unknown =>
    simp only
    constructor
    · rintro ⟨k, _, hk⟩
      exact hk.elim
    · rintro ⟨_, _, k, _, hk⟩
      exact hk.elim

theorem GraphScaled.growth (h : GraphScaled s u r g g') (hs : UnitChange s t) (hr : UnitChange r r') (hq : RootScales r)
    (coupling : Coupling) : GrowthAlike (fun x y => y = couplingScale coupling s r' x) g g' coupling where
  rowPtr := h.rowPtr
  colInd := h.colInd
  step := ⟨_, .same (h.stepDir hr hq)⟩
  keeps := by
    refine Keeps.alike ?_
    cases coupling with
    | maxWeight => exact hs.1.keeps
    | minDistance => exact hr.2.keeps.comp hr.2.keeps
    | unknown => exact .id
  tenth := by
    rintro m _ w _ rfl rfl
    cases coupling with
    | maxWeight =>
      simp only [couplingScale]
      rw [hs.1.mulRight, hs.1.lt]
    | minDistance =>
      simp only [couplingScale]
      rw [hr.2.mulRight, hr.2.mulRight, hr.2.lt, hr.2.lt]
    | unknown => rfl
  coup i n w hw := ⟨_, rfl, (h.coupling hr.1).2 ⟨w, rfl, hw⟩⟩
  back _ _ _ hw := (h.coupling hr.1).1 hw

end CoMMA
