import Verif.Lemmas.Transfer
import Verif.Spec.SameData
import Verif.Spec.Turn
/-! # The aspect ratios computed from other data -/

set_option linter.unusedSectionVars false

namespace CoMMA

variable {W : Type} [Num W]

/-- the data of two graphs agree as far as the type of aspect ratio uses them -/
structure DataAlike (D : Nat) (φ : List W → List W) (kind : ARKind) (g g' : Graph W) : Prop where
  known : kind ≠ .unknown
  nbC : g'.nbC = g.nbC
  rowPtr : g'.rowPtr = g.rowPtr
  colInd : g'.colInd = g.colInd
  nBnd : g'.nBnd = g.nBnd
  dim : g'.dim = g.dim
  values : kind.usesWeights → g'.values = g.values
  volumes : kind.usesVolumes → g'.volumes = g.volumes
  dist : kind.geom = true → ∀ i j ci cj, rd g.centers i = .ok ci → rd g.centers j = .ok cj →
    ∃ ci' cj', rd g'.centers i = .ok ci' ∧ rd g'.centers j = .ok cj' ∧ sqDist ci' cj' = sqDist ci cj
  bary : kind.bary = true → TurnsSpace D φ ∧ Turned D φ g.centers g'.centers

/-- features that agree as far as the type of aspect ratio uses them -/
structure FeatsAlike (D : Nat) (φ : List W → List W) (kind : ARKind) (f f' : Feats W) : Prop where
  nInt : f'.nInt = f.nInt
  facets : f'.facets = f.facets
  measure : kind.usesVolumes → f'.measure = f.measure
  weights : kind.usesWeights → f'.ext = f.ext ∧ f'.int = f.int
  geom : kind.geom = true → f'.sqMin = f.sqMin ∧ f'.sqDiam = f.sqDiam
  bary : kind.bary = true → f'.sum = φ f.sum ∧ f.sum.length = D

variable {g g' : Graph W} {kind : ARKind} {D : Nat} {φ : List W → List W}

theorem usesWeights_iff : kind.usesWeights ↔ kind.weights = true := by
  cases kind <;> simp [ARKind.usesWeights, ARKind.weights]

theorem DataAlike.totalFaces (h : DataAlike D φ kind g g') (i : Nat) : g'.totalFaces i = g.totalFaces i := by
  unfold Graph.totalFaces Graph.nbNeighs
  rw [h.nBnd, h.rowPtr]

theorem DataAlike.totalWeight (h : DataAlike D φ kind g g') (hk : kind.usesWeights) (i : Nat) :
    g'.totalWeight i = g.totalWeight i := by
  unfold Graph.totalWeight Graph.boundaryWeight Graph.weights Graph.nbNeighs
  rw [h.nBnd, h.rowPtr, h.values hk]

theorem shared_snd {i : Nat} {cc : NSet} :
    ∀ (l l' : List (Nat × W)) (a a' : W × NSet), l'.map Prod.fst = l.map Prod.fst → a'.2 = a.2 →
      (l'.foldl (fun (a : W × NSet) e => if e.1 ≠ i ∧ cc.has e.1 = true then (Num.add a.1 e.2, a.2.insert e.1) else a) a').2 =
      (l.foldl (fun (a : W × NSet) e => if e.1 ≠ i ∧ cc.has e.1 = true then (Num.add a.1 e.2, a.2.insert e.1) else a) a).2 := by
  intro l
  induction l with
  | nil =>
    intro l' a a' h1 h2
    have : l' = [] := by simpa using h1
    rw [this]; exact h2
  | cons e l ih =>
    intro l' a a' h1 h2
    cases l' with
    | nil => simp at h1
    | cons e' l' =>
      rw [List.map_cons, List.map_cons, List.cons.injEq] at h1
      rw [List.foldl_cons, List.foldl_cons]
      refine ih l' _ _ h1.2 ?_
      rw [h1.1]
      split
      · show a'.2.insert e.1 = a.2.insert e.1
        rw [h2]
      · exact h2

theorem DataAlike.shared (h : DataAlike D φ kind g g') (hc : ValidCRS g.nbC g.rowPtr g.colInd) (hm : MeshSizes g) (hm' : MeshSizes g')
    {i : Nat} (hi : i < g.nbC) (cc : NSet) :
    ∃ s s' : W × NSet, sharedFaces g i cc = .ok s ∧ sharedFaces g' i cc = .ok s' ∧ s'.2 = s.2 ∧ (kind.usesWeights → s' = s) := by
  have hc' : ValidCRS g'.nbC g'.rowPtr g'.colInd := by rw [h.nbC, h.rowPtr, h.colInd]; exact hc
  have hi' : i < g'.nbC := by rw [h.nbC]; exact hi
  obtain ⟨w1, w2⟩ := weights_eq hc hm.values hi
  obtain ⟨w1', w2'⟩ := weights_eq hc' hm'.values hi'
  unfold sharedFaces
  rw [neighs_eq hc hi, neighs_eq hc' hi', w1, w1']
  refine ⟨_, _, rfl, rfl, ?_, ?_⟩
  · refine shared_snd _ _ _ _ ?_ rfl
    rw [List.map_fst_zip (le_of_eq w2.symm), List.map_fst_zip (le_of_eq w2'.symm), h.rowPtr, h.colInd]
  · intro hk
    rw [h.values hk, h.rowPtr, h.colInd]

theorem DataAlike.basic (h : DataAlike D φ kind g g') (hc : ValidCRS g.nbC g.rowPtr g.colInd) (hm : MeshSizes g) (hm' : MeshSizes g')
    {cw uf : Bool} (hcw : cw = true → kind.usesWeights) (hcw' : cw = false → ¬ kind.usesWeights) {i : Nat} {f f' : Feats W}
    (hf : FeatsAlike D φ kind f f') {cc : NSet} {n : Nat} {f1 : Feats W} (hb : updateBasic cw uf g i f cc = .ok (n, f1)) :
    i < g.nbC ∧ ∃ f1', updateBasic cw uf g' i f' cc = .ok (n, f1') ∧ f1'.nInt = f1.nInt ∧ f1'.facets = f1.facets ∧
      (kind.usesVolumes → f1'.measure = f1.measure) ∧ (kind.usesWeights → f1'.ext = f1.ext ∧ f1'.int = f1.int) := by
  unfold updateBasic at hb ⊢
  obtain ⟨v, hv, hb⟩ := bind_ok_iff.1 hb
  have hi : i < g.nbC := by
    have := (List.getElem?_eq_some_iff.1 (rd_ok.1 hv)).1
    rwa [hm.volumes] at this
  refine ⟨hi, ?_⟩
  have hi' : i < g'.volumes.length := by rw [hm'.volumes, h.nbC]; exact hi
  obtain ⟨v', hv'⟩ : ∃ v', rd g'.volumes i = .ok v' := ⟨_, rd_of_lt hi'⟩
  have hvv : kind.usesVolumes → v' = v := by
    intro hk
    rw [h.volumes hk, hv] at hv'
    cases hv'; rfl
  obtain ⟨s, s', hs, hs', hs2, hs3⟩ := h.shared hc hm hm' hi cc
  rw [hv', ok_bind, hs', ok_bind]
  rw [hs, ok_bind] at hb
  obtain ⟨d, hd, hb⟩ := bind_ok_iff.1 hb
  have key : ∃ d', withWeights cw g' i f' s'.1
      { Feats.default with measure := Num.add f'.measure v', nInt := f'.nInt + s'.2.card } = .ok d' ∧
      d'.nInt = d.nInt ∧ d'.facets = d.facets ∧ (kind.usesVolumes → d'.measure = d.measure) ∧
      (kind.usesWeights → d'.ext = d.ext ∧ d'.int = d.int) := by
    unfold withWeights at hd ⊢
    cases cw with
    | false =>
      rw [if_neg (by simp)] at hd ⊢
      cases hd
      refine ⟨_, rfl, ?_, rfl, ?_, ?_⟩
      · show f'.nInt + s'.2.card = f.nInt + s.2.card
        rw [hf.nInt, hs2]
      · intro hk
        show Num.add f'.measure v' = Num.add f.measure v
        rw [hf.measure hk, hvv hk]
      · intro hk
        exact absurd hk (hcw' rfl)
    | true =>
      have hk := hcw rfl
      rw [if_pos rfl] at hd ⊢
      unfold updateWeights at hd ⊢
      rw [h.totalWeight hk]
      obtain ⟨p, hp, hd⟩ := bind_ok_iff.1 hd
      obtain ⟨t, ht, hp⟩ := bind_ok_iff.1 hp
      cases hp
      cases hd
      rw [ht]
      refine ⟨_, rfl, ?_, rfl, ?_, ?_⟩
      · show f'.nInt + s'.2.card = f.nInt + s.2.card
        rw [hf.nInt, hs2]
      · intro hk
        show Num.add f'.measure v' = Num.add f.measure v
        rw [hf.measure hk, hvv hk]
      · intro hk
        obtain ⟨e1, e2⟩ := hf.weights hk
        have e3 := hs3 hk
        subst e3
        show Num.sub (Num.add f'.ext t) _ = Num.sub (Num.add f.ext t) _ ∧ Num.add f'.int _ = Num.add f.int _
        rw [e1, e2]
        exact ⟨rfl, rfl⟩
  obtain ⟨d', hd', k1, k2, k3, k4⟩ := key
  rw [hd', ok_bind]
  cases uf with
  | false =>
    rw [if_neg (by simp)] at hb ⊢
    cases hb
    exact ⟨d', by rw [hs2]; rfl, k1, k2, k3, k4⟩
  | true =>
    rw [if_pos rfl] at hb ⊢
    obtain ⟨m, hm1, hb⟩ := bind_ok_iff.1 hb
    cases hb
    have : updateFacets g' i f'.facets s'.2 = .ok m := by
      rw [← hm1, hf.facets, hs2]
      unfold updateFacets
      rw [h.totalFaces]
    rw [this, hs2]
    exact ⟨_, rfl, k1, rfl, k3, k4⟩

theorem DataAlike.geometry (h : DataAlike D φ kind g g') (hk : kind.geom = true) {hs : Hash} {i : Nat} {f f' : Feats W}
    (hf : FeatsAlike D φ kind f f') {cc : NSet} {y : W × W} (hb : updateGeom g hs i f cc = .ok y) : updateGeom g' hs i f' cc = .ok y := by
  unfold updateGeom at hb ⊢
  obtain ⟨c, hc, hb⟩ := bind_ok_iff.1 hb
  obtain ⟨c', _, hc', _⟩ := h.dist hk i i c c hc hc
  rw [hc', ok_bind]
  obtain ⟨e1, e2⟩ := hf.geom hk
  rw [e1, e2]
  generalize (f.sqDiam, f.sqMin) = s at hb ⊢
  revert hb s
  induction hs.ord 4 cc.elems with
  | nil => intro s hb; exact hb
  | cons x l ih =>
    intro s hb
    rw [List.foldlM_cons] at hb ⊢
    obtain ⟨s1, h1, hb⟩ := bind_ok_iff.1 hb
    obtain ⟨cx, hx, h1⟩ := bind_ok_iff.1 h1
    obtain ⟨dd, hd, h1⟩ := bind_ok_iff.1 h1
    obtain ⟨c1, cx', a1, a2, a3⟩ := h.dist hk i x c cx hc hx
    rw [hc'] at a1
    cases a1
    rw [a2, ok_bind, a3, hd, ok_bind]
    cases h1
    rw [pure_bind]
    exact ih _ hb

theorem DataAlike.value (h : DataAlike D φ kind g g') (hb : kind.bary = false) {cc : NSet} {f f' : Feats W} (hf : FeatsAlike D φ kind f f') :
    arValue g'.dim kind cc f' = arValue g.dim kind cc f := by
  have hu := h.known
  have h1 := hf.measure
  have h2 := hf.weights
  have h3 := hf.geom
  rw [h.dim]
  cases kind <;> simp [ARKind.bary] at hb hu <;>
    simp [ARKind.usesVolumes, ARKind.usesWeights, ARKind.geom] at h1 h2 h3 <;> simp [arValue, xOverRadius, *]

theorem FeatsAlike.init (h : DataAlike D φ kind g g') (hc : ValidCRS g.nbC g.rowPtr g.colInd) (hm : MeshSizes g) (hm' : MeshSizes g')
    {i : Nat} {f : Feats W} (hf : Feats.init g i = .ok f) : ∃ f', Feats.init g' i = .ok f' ∧ FeatsAlike D φ kind f f' := by
  unfold Feats.init at hf ⊢
  obtain ⟨v, hv, hf⟩ := bind_ok_iff.1 hf
  obtain ⟨e, he, hf⟩ := bind_ok_iff.1 hf
  obtain ⟨n, hn, hf⟩ := bind_ok_iff.1 hf
  obtain ⟨c, hcc, hf⟩ := bind_ok_iff.1 hf
  cases hf
  have hi : i < g.nbC := by
    have := (List.getElem?_eq_some_iff.1 (rd_ok.1 hv)).1
    rwa [hm.volumes] at this
  have hi' : i < g'.nbC := by rw [h.nbC]; exact hi
  have hc' : ValidCRS g'.nbC g'.rowPtr g'.colInd := by rw [h.nbC, h.rowPtr, h.colInd]; exact hc
  obtain ⟨v', hv'⟩ : ∃ v', rd g'.volumes i = .ok v' := ⟨_, rd_of_lt (by rw [hm'.volumes]; exact hi')⟩
  obtain ⟨e', he', _⟩ := Ok.eq (totalWeight_ok hc' hm' hi')
  obtain ⟨c', hcc'⟩ : ∃ c', rd g'.centers i = .ok c' := ⟨_, rd_of_lt (by rw [hm'.centers]; exact hi')⟩
  rw [hv', ok_bind, he', ok_bind, h.totalFaces, hn, ok_bind, hcc', ok_bind]
  have hvv : kind.usesVolumes → v' = v := by
    intro hk
    rw [h.volumes hk, hv] at hv'
    cases hv'; rfl
  refine ⟨_, rfl, rfl, rfl, hvv, ?_, fun _ => ⟨rfl, rfl⟩, ?_⟩
  · intro hk
    rw [h.totalWeight hk, he] at he'
    cases he'
    exact ⟨rfl, rfl⟩
  · intro hk
    have hk2 : kind.usesVolumes := by
      cases kind <;> simp [ARKind.bary] at hk <;> simp [ARKind.usesVolumes]
    obtain ⟨t1, t2, t3⟩ := h.bary hk
    have l1 := rd_ok.1 hcc'
    rw [t2, List.getElem?_map, rd_ok.1 hcc] at l1
    cases l1
    refine ⟨?_, ?_⟩
    · show (φ c).map (fun x => Num.mul x v') = φ (c.map (fun x => Num.mul x v))
      rw [hvv hk2, t1.timesRight _ _ (t3 c (List.mem_of_getElem? (rd_ok.1 hcc)))]
    · show (c.map _).length = D
      rw [List.length_map, t3 c (List.mem_of_getElem? (rd_ok.1 hcc))]

theorem TurnsSpace.id (D : Nat) : TurnsSpace (W := W) D id :=
  ⟨fun _ h => h, rfl, fun _ _ _ _ => rfl, fun _ _ _ _ => rfl, fun _ _ => rfl, fun _ _ _ => rfl, fun _ _ _ => rfl, fun _ _ _ _ => rfl⟩

/-- one turn after another -/
theorem TurnsSpace.comp {ψ : List W → List W} (h : TurnsSpace D φ) (h' : TurnsSpace D ψ) : TurnsSpace D (fun c => ψ (φ c)) where
  length c hc := h'.length _ (h.length c hc)
  zero := by rw [h.zero, h'.zero]
  add c d hc hd := by rw [h.add c d hc hd, h'.add _ _ (h.length c hc) (h.length d hd)]
  sub c d hc hd := by rw [h.sub c d hc hd, h'.sub _ _ (h.length c hc) (h.length d hd)]
  neg c hc := by rw [h.neg c hc, h'.neg _ (h.length c hc)]
  times c k hc := by rw [h.times c k hc, h'.times _ k (h.length c hc)]
  timesRight c k hc := by rw [h.timesRight c k hc, h'.timesRight _ k (h.length c hc)]
  scalar c d hc hd := by rw [h'.scalar _ _ (h.length c hc) (h.length d hd), h.scalar c d hc hd]

/-- the new sum of moments and the barycenter -/
theorem updateBary_closed {i : Nat} {f : Feats W} {cc : NSet} {c : List W} {v : W} (hc : rd g.centers i = .ok c)
    (hv : rd g.volumes i = .ok v) (hl : f.sum.length = c.length) :
    updateBary g i f cc = .ok (List.zipWith Num.add f.sum (c.map (fun x => Num.mul v x)),
      (List.zipWith Num.add f.sum (c.map (fun x => Num.mul v x))).map
        (fun x => Num.mul x (Num.div (Num.ofNat 1) (Num.ofNat (cc.card + 1))))) := by
  unfold updateBary
  rw [hc, ok_bind, hv, ok_bind]
  simp only
  generalize (Num.div (Num.ofNat 1) (Num.ofNat (cc.card + 1)) : W) = ov
  set S := List.zipWith Num.add f.sum (c.map (fun x => Num.mul v x)) with hS
  have hSl : S.length = c.length := by rw [hS, List.length_zipWith, List.length_map, hl, min_self]
  have hSk : ∀ k (hk : k < c.length), S[k]'(by omega) = Num.add (f.sum[k]'(by omega)) (Num.mul v c[k]) := by
    intro k hk
    simp [hS]
  suffices hok : Ok ((List.range c.length).foldlM (fun (a : List W × List W) j => do
      let x ← rd c j
      let s ← rd a.1 j
      let sum ← wr a.1 j (Num.add s (Num.mul v x))
      pure (sum, a.2 ++ [Num.mul (Num.add s (Num.mul v x)) ov])) (f.sum, [])) (fun r => r = (S, S.map (fun x => Num.mul x ov))) by
    obtain ⟨r, h1, h2⟩ := hok.eq
    rw [h1, h2]
  refine Ok.mono (Ok.foldlM_range (I := fun k (a : List W × List W) => a.1 = S.take k ++ f.sum.drop k ∧
    a.2 = (S.take k).map (fun x => Num.mul x ov)) ?_ ?_) ?_
  · simp
  · rintro k hk ⟨a1, a2⟩ ⟨h1, h2⟩
    simp only at h1 h2
    subst h1 h2
    have l0 : (S.take k).length = k := by rw [List.length_take, hSl]; omega
    have lk : k < (S.take k ++ f.sum.drop k).length := by
      rw [List.length_append, l0, List.length_drop]; omega
    have hg : (S.take k ++ f.sum.drop k)[k] = f.sum[k]'(by omega) := by
      rw [List.getElem_append_right (by omega), List.getElem_drop]
      congr 1
      omega
    rw [rd_of_lt hk, ok_bind, rd_of_lt lk, ok_bind, wr_of_lt lk, ok_bind, Ok_pure, hg, ← hSk k hk]
    have ht : S.take (k + 1) = S.take k ++ [S[k]'(by omega)] := (List.take_append_getElem (by omega)).symm
    refine ⟨?_, ?_⟩
    · simp only
      rw [ht, List.set_append_right _ _ (by omega), l0, Nat.sub_self, List.drop_eq_getElem_cons (by omega : k < f.sum.length),
        List.set_cons_zero, List.append_assoc]
      rfl
    · simp only
      rw [ht, List.map_append]
      rfl
  · rintro ⟨a1, a2⟩ ⟨h1, h2⟩
    simp only at h1 h2
    rw [h1, h2, List.take_of_length_le (by omega), List.drop_eq_nil_of_le (by omega), List.append_nil]

/-- the barycenters of turned centers, and the distances to them -/
theorem TurnsSpace.dist (h : TurnsSpace D φ) {c d : List W} (hc : c.length = D) (hd : d.length = D) :
    sqDist (φ c) (φ d) = sqDist c d := by
  have key : ∀ a b : List W, dist2 a b = CoMMA.scalar (List.zipWith Num.sub a b) (List.zipWith Num.sub a b) := by
    intro a b
    unfold dist2 CoMMA.scalar
    rw [List.zipWith_self, List.map_zipWith]
  rw [sqDist_eq (by rw [h.length c hc, h.length d hd]), sqDist_eq (by rw [hc, hd]), key, key, ← h.sub c d hc hd,
    h.scalar _ _ (by simp [hc, hd]) (by simp [hc, hd])]

theorem DataAlike.updateBary (h : DataAlike D φ kind g g') (hb : kind.bary = true) (hv : kind.usesVolumes) {i : Nat} {f f' : Feats W}
    (hf : FeatsAlike D φ kind f f') {cc : NSet} {y : List W × List W} (hy : updateBary g i f cc = .ok y) :
    CoMMA.updateBary g' i f' cc = .ok (φ y.1, φ y.2) ∧ y.1.length = D ∧ y.2.length = D := by
  obtain ⟨t1, t2, t3⟩ := h.bary hb
  obtain ⟨f1, f2⟩ := hf.bary hb
  have hy0 := hy
  unfold CoMMA.updateBary at hy
  obtain ⟨c, hc, hy⟩ := bind_ok_iff.1 hy
  obtain ⟨v, hvo, hy⟩ := bind_ok_iff.1 hy
  have lc := t3 c (List.mem_of_getElem? (rd_ok.1 hc))
  rw [updateBary_closed hc hvo (by rw [f2, lc])] at hy0
  cases hy0
  have hc' : rd g'.centers i = .ok (φ c) := by rw [rd_ok, t2, List.getElem?_map, rd_ok.1 hc]; rfl
  have ls : (List.zipWith Num.add f.sum (c.map (fun x => Num.mul v x))).length = D := by simp [f2, lc]
  rw [updateBary_closed hc' (by rw [h.volumes hv]; exact hvo) (by rw [f1, t1.length _ f2, t1.length _ lc]), f1,
    ← t1.times c v lc, ← t1.add _ _ f2 (by simp [lc]), ← t1.timesRight _ _ ls]
  exact ⟨rfl, ls, by simpa using ls⟩

theorem Turned.rd {cs cs' : List (List W)} (h : Turned D φ cs cs') (i : Nat) :
    (∃ e, CoMMA.rd cs i = .error e ∧ CoMMA.rd cs' i = .error e) ∨ ∃ c, c.length = D ∧ CoMMA.rd cs i = .ok c ∧ CoMMA.rd cs' i = .ok (φ c) := by
  unfold CoMMA.rd
  rw [h.1, List.getElem?_map]
  cases hc : cs[i]? with
  | none => exact Or.inl ⟨_, rfl, rfl⟩
  | some c => exact Or.inr ⟨c, h.2 c (List.mem_of_getElem? hc), rfl, rfl⟩

/-- reading a center and taking its distance to a point -/
theorem Turned.read {α : Type} (ht : TurnsSpace D φ) {cs cs' : List (List W)} (h : Turned D φ cs cs') {b : List W} (hb : b.length = D)
    (i : Nat) (k : W → M α) :
    (CoMMA.rd cs' i >>= fun c => sqDist (φ b) c >>= k) = (CoMMA.rd cs i >>= fun c => sqDist b c >>= k) := by
  rcases h.rd i with ⟨e, h1, h2⟩ | ⟨c, h1, h2, h3⟩
  · rw [h1, h2]; rfl
  · rw [h2, h3, ok_bind, ok_bind, ht.dist hb h1]

theorem DataAlike.maxBaryEq (ht : TurnsSpace D φ) (h : Turned D φ g.centers g'.centers) (hs : Hash) {b : List W} (hb : b.length = D)
    (i : Nat) (cc : NSet) : maxBary g' hs (φ b) i cc = maxBary g hs b i cc := by
  unfold maxBary
  simp only [h.read ht hb]

theorem DataAlike.minMaxEq (ht : TurnsSpace D φ) (h : Turned D φ g.centers g'.centers) (hs : Hash) {b : List W} (hb : b.length = D)
    (m : NMap Int) (i : Nat) (cc : NSet) : minMaxBary g' hs (φ b) m i cc = minMaxBary g hs b m i cc := by
  unfold minMaxBary minMaxFirst
  simp only [h.read ht hb]

theorem DataAlike.ratios (h : DataAlike D φ kind g g') (hc : ValidCRS g.nbC g.rowPtr g.colInd) (hm : MeshSizes g) (hm' : MeshSizes g')
    (hs : Hash) : RatiosAlike (FeatsAlike D φ kind) (fun _ => Eq) (arOf g hs kind) (arOf g' hs kind) := by
  refine ⟨fun s f hf => FeatsAlike.init h hc hm hm' hf, ?_, fun _ => .refl⟩
  intro i f f' cc n r f1 _ _ hf hstep
  suffices ∃ f1', (arOf g' hs kind).compute i f' cc = .ok (n, r, f1') ∧ FeatsAlike D φ kind f1 f1' by
    obtain ⟨f1', h1, h2⟩ := this
    exact ⟨r, f1', h1, rfl, h2⟩
  simp only [arOf] at hstep ⊢
  by_cases hb : kind.bary = true
  · rw [if_pos hb] at hstep ⊢
    have hw : ¬ kind.usesWeights := by
      cases kind <;> simp [ARKind.bary] at hb <;> simp [ARKind.usesWeights]
    have hv : kind.usesVolumes := by
      cases kind <;> simp [ARKind.bary] at hb <;> simp [ARKind.usesVolumes]
    have hg : ¬ kind.geom = true := by
      cases kind <;> simp [ARKind.bary] at hb <;> simp [ARKind.geom]
    unfold arBary at hstep ⊢
    obtain ⟨⟨n1, b1⟩, h1, hstep⟩ := bind_ok_iff.1 hstep
    obtain ⟨hi, b1', h1', k1, k2, k3, k4⟩ := h.basic hc hm hm' (fun h => by cases h) (fun _ => hw) hf h1
    rw [h1', ok_bind]
    obtain ⟨y, hy, hstep⟩ := bind_ok_iff.1 hstep
    obtain ⟨hy', l1, l2⟩ := h.updateBary hb hv hf hy
    obtain ⟨t1, t2⟩ := h.bary hb
    rw [hy', ok_bind]
    simp only at hstep ⊢
    by_cases hk : kind = .maxOverMinBary
    · rw [if_pos hk] at hstep ⊢
      obtain ⟨m, hm1, hstep⟩ := bind_ok_iff.1 hstep
      cases hstep
      rw [DataAlike.minMaxEq t1 t2 hs l2, k2, hm1, ok_bind]
      exact ⟨_, rfl, k1, rfl, k3, k4, fun h => absurd h hg, fun _ => ⟨rfl, l1⟩⟩
    · rw [if_neg hk] at hstep ⊢
      obtain ⟨m, hm1, hstep⟩ := bind_ok_iff.1 hstep
      cases hstep
      rw [DataAlike.maxBaryEq t1 t2 hs l2, hm1, ok_bind]
      refine ⟨{ b1' with sum := φ y.1 }, ?_, k1, k2, k3, k4, fun h => absurd h hg, fun _ => ⟨rfl, l1⟩⟩
      have : xOverRadius g'.dim m { b1' with sum := φ y.1 } = xOverRadius g.dim m { b1 with sum := y.1 } := by
        unfold xOverRadius
        rw [h.dim]
        simp only
        rw [k3 hv]
      rw [this]
      rfl
  · rw [if_neg hb] at hstep ⊢
    have hb' : kind.bary = false := by simpa using hb
    by_cases hg : kind.geom = true
    · rw [if_pos hg] at hstep ⊢
      have hw : ¬ kind.usesWeights := by
        cases kind <;> simp [ARKind.geom] at hg <;> simp [ARKind.usesWeights]
      unfold arGeom at hstep ⊢
      obtain ⟨⟨n1, b1⟩, h1, hstep⟩ := bind_ok_iff.1 hstep
      obtain ⟨hi, b1', h1', k1, k2, k3, k4⟩ := h.basic hc hm hm' (fun h => by cases h) (fun _ => hw) hf h1
      rw [h1', ok_bind]
      obtain ⟨y, hy, hstep⟩ := bind_ok_iff.1 hstep
      rw [h.geometry hg hf hy, ok_bind]
      cases hstep
      have hF : FeatsAlike D φ kind { b1 with sqDiam := y.1, sqMin := y.2 } { b1' with sqDiam := y.1, sqMin := y.2 } :=
        ⟨k1, k2, k3, k4, fun _ => ⟨rfl, rfl⟩, fun h => absurd h hb⟩
      refine ⟨_, ?_, hF⟩
      simp only
      rw [h.value hb' hF]
      rfl
    · rw [if_neg hg] at hstep ⊢
      unfold arPlain at hstep ⊢
      obtain ⟨⟨n1, b1⟩, h1, hstep⟩ := bind_ok_iff.1 hstep
      obtain ⟨hi, b1', h1', k1, k2, k3, k4⟩ := h.basic hc hm hm' usesWeights_iff.2
        (fun h1 h2 => by rw [usesWeights_iff.1 h2] at h1; cases h1) hf h1
      rw [h1', ok_bind]
      cases hstep
      have hF : FeatsAlike D φ kind b1 b1' := ⟨k1, k2, k3, k4, fun h => absurd h hg, fun h => absurd h hb⟩
      refine ⟨_, ?_, hF⟩
      simp only
      rw [h.value hb' hF]
      rfl

end CoMMA
