import Verif.Lemmas.Numbering
import Verif.Lemmas.HashFree
import Verif.Spec.NumberingLines
/-! # Growth of coarse cells under another numbering, whatever the arithmetic -/

set_option linter.unusedSectionVars false

namespace CoMMA

variable {W F : Type} [Num W] {σ τ : Nat → Nat}

theorem rd_same {α : Type} {v v' : List α} {i j : Nat} (h : v'[j]? = v[i]?) : rd v' j = rd v i := by
  unfold rd
  rw [h]

/-- an order of iteration that follows another one -/
theorem Hash.following (h : Hash) (s : Nat) {l l' : List Nat} (hp : l'.Perm (l.map σ)) : ∃ h2 : Hash, h2.ord s l' = (h.ord s l).map σ := by
  refine ⟨⟨fun _ m => if m = l' then (h.ord s l).map σ else m, fun _ m => ?_⟩, if_pos rfl⟩
  split
  · rename_i hm
    rw [hm]
    exact ((h.perm s l).map σ).trans hp.symm
  · exact .refl _

theorem foldlM_rel {α β β' : Type} {f : β → α → M β} {f' : β' → α → M β'} {R : β → β' → Prop}
    (hf : ∀ a b b' c, R b b' → f b a = .ok c → ∃ c', f' b' a = .ok c' ∧ R c c') :
    ∀ (l : List α) b b' c, R b b' → l.foldlM f b = .ok c → ∃ c', l.foldlM f' b' = .ok c' ∧ R c c' := by
  intro l
  induction l with
  | nil => intro b b' c hb h; cases h; exact ⟨b', rfl, hb⟩
  | cons a l ih =>
    intro b b' c hb h
    rw [List.foldlM_cons] at h
    obtain ⟨d, h1, h2⟩ := bind_ok_iff.1 h
    obtain ⟨d', h3, h4⟩ := hf a b b' d hb h1
    rw [List.foldlM_cons, h3]
    exact ih d d' c h4 h2

/-- the features `f'` are `f` after renumbering -/
structure ImgFeats (σ : Nat → Nat) (f f' : Feats W) : Prop where
  measure : f'.measure = f.measure
  ext : f'.ext = f.ext
  int : f'.int = f.int
  nInt : f'.nInt = f.nInt
  sqMin : f'.sqMin = f.sqMin
  sqDiam : f'.sqDiam = f.sqDiam
  sum : f'.sum = f.sum
  facets : ∀ x, f'.facets.find? (σ x) = f.facets.find? x

/-- two graphs for the same mesh, with the faces of each cell listed in the same order -/
structure SameGraph (σ : Nat → Nat) (g g' : Graph W) : Prop where
  img : ImgGraph σ g g'
  faces : ∀ i, facesOf g' (σ i) = (facesOf g i).map (fun e => (σ e.1, e.2))
  crs : ValidCRS g.nbC g.rowPtr g.colInd
  crs' : ValidCRS g'.nbC g'.rowPtr g'.colInd
  sizes : MeshSizes g
  sizes' : MeshSizes g'
  range : ∀ x, σ x < g'.nbC ↔ x < g.nbC

section features
variable {g g' : Graph W} (h : Renumbering σ τ) (hg : SameGraph σ g g')
include h hg

theorem SameGraph.zip {i : Nat} (hi : i < g.nbC) :
    (rowL g'.rowPtr g'.colInd (σ i)).zip (rowL g'.rowPtr g'.values (σ i)) =
      ((rowL g.rowPtr g.colInd i).zip (rowL g.rowPtr g.values i)).map (fun e => (σ e.1, e.2)) := by
  rw [← facesOf_eq hg.crs hg.sizes.values hi, ← facesOf_eq hg.crs' hg.sizes'.values ((hg.range i).2 hi)]
  exact hg.faces i

theorem SameGraph.weights {i : Nat} (hi : i < g.nbC) : g'.weights (σ i) = g.weights i := by
  have h1 := weights_eq hg.crs hg.sizes.values hi
  have h2 := weights_eq hg.crs' hg.sizes'.values ((hg.range i).2 hi)
  rw [h1.1, h2.1]
  have := congrArg (List.map Prod.snd) (hg.zip h hi)
  rw [List.map_snd_zip (by omega), List.map_map] at this
  rw [this]
  congr 1
  show List.map Prod.snd _ = _
  exact List.map_snd_zip (by omega)

theorem SameGraph.nbNeighs {i : Nat} (hi : i < g.nbC) : g'.nbNeighs (σ i) = g.nbNeighs i := by
  obtain ⟨n, h1, h2⟩ := nbNeighs_ok hg.crs hi
  obtain ⟨n', h1', h2'⟩ := nbNeighs_ok hg.crs' ((hg.range i).2 hi)
  have := (hg.img.rows i).length_eq
  rw [rowOf_eq hg.crs hi, rowOf_eq hg.crs' ((hg.range i).2 hi), List.length_map] at this
  rw [h1, h1', h2, h2', this]

theorem SameGraph.bnd (i : Nat) : rd g'.nBnd (σ i) = rd g.nBnd i := rd_same (hg.img.nBnd i)
theorem SameGraph.volume (i : Nat) : rd g'.volumes (σ i) = rd g.volumes i := rd_same (hg.img.volumes i)
theorem SameGraph.center (i : Nat) : rd g'.centers (σ i) = rd g.centers i := rd_same (hg.img.centers i)

theorem SameGraph.totalFaces {i : Nat} (hi : i < g.nbC) : g'.totalFaces (σ i) = g.totalFaces i := by
  unfold Graph.totalFaces
  rw [hg.bnd h, hg.nbNeighs h hi]

theorem SameGraph.totalWeight {i : Nat} (hi : i < g.nbC) : g'.totalWeight (σ i) = g.totalWeight i := by
  unfold Graph.totalWeight Graph.boundaryWeight
  rw [hg.bnd h, hg.weights h hi, hg.nbNeighs h hi]

theorem SameGraph.init {i : Nat} {f : Feats W} (hf : Feats.init g i = .ok f) :
    ∃ f', Feats.init g' (σ i) = .ok f' ∧ ImgFeats σ f f' := by
  unfold Feats.init at hf
  obtain ⟨v, h1, hf⟩ := bind_ok_iff.1 hf
  have hi : i < g.nbC := by
    rw [← hg.sizes.volumes]
    exact (List.getElem?_eq_some_iff.1 (rd_ok.1 h1)).1
  obtain ⟨e, h2, hf⟩ := bind_ok_iff.1 hf
  obtain ⟨n, h3, hf⟩ := bind_ok_iff.1 hf
  obtain ⟨c, h4, hf⟩ := bind_ok_iff.1 hf
  unfold Feats.init
  rw [hg.volume h, hg.totalWeight h hi, hg.totalFaces h hi, hg.center h, h1, ok_bind, h2, ok_bind, h3, ok_bind, h4, ok_bind]
  cases hf
  refine ⟨_, rfl, rfl, rfl, rfl, rfl, rfl, rfl, rfl, fun x => ?_⟩
  simp only [NMap.find?_insert, h.inj.eq_iff]
  rfl

theorem SameGraph.shared {i : Nat} (hi : i < g.nbC) {cc cc' : NSet} (hs : ImgSet σ cc cc') :
    ∃ w s s', sharedFaces g i cc = .ok (w, s) ∧ sharedFaces g' (σ i) cc' = .ok (w, s') ∧ ImgSet σ s s' := by
  have h1 := weights_eq hg.crs hg.sizes.values hi
  have hi' := (hg.range i).2 hi
  unfold sharedFaces
  rw [neighs_eq hg.crs hi, neighs_eq hg.crs' hi', hg.weights h hi, ok_bind, ok_bind, h1.1, ok_bind, ok_bind]
  have h2 := weights_eq hg.crs' hg.sizes'.values hi'
  have e : rowL g'.rowPtr g'.values (σ i) = rowL g.rowPtr g.values i := by
    have := hg.weights h hi
    rw [h2.1, h1.1] at this
    exact Except.ok.inj this
  have hz := hg.zip h hi
  rw [e] at hz
  rw [hz]
  generalize (rowL g.rowPtr g.colInd i).zip (rowL g.rowPtr g.values i) = l
  have key : ∀ (l : List (Nat × W)) (w : W) (s s' : NSet), ImgSet σ s s' → ∃ w1 s1 s1',
      l.foldl (fun (a : W × NSet) e => if e.1 ≠ i ∧ cc.has e.1 = true then (Num.add a.1 e.2, a.2.insert e.1) else a) (w, s) = (w1, s1) ∧
      (l.map (fun e => (σ e.1, e.2))).foldl (fun (a : W × NSet) e => if e.1 ≠ σ i ∧ cc'.has e.1 = true then
        (Num.add a.1 e.2, a.2.insert e.1) else a) (w, s') = (w1, s1') ∧ ImgSet σ s1 s1' := by
    intro l
    induction l with
    | nil => intro w s s' hss; exact ⟨w, s, s', rfl, rfl, hss⟩
    | cons e l ih =>
      intro w s s' hss
      rw [List.map_cons, List.foldl_cons, List.foldl_cons]
      simp only [ne_eq, h.inj.eq_iff, hs.has]
      by_cases hc : ¬ e.1 = i ∧ cc.has e.1 = true
      · rw [if_pos hc, if_pos hc]
        simpa only [ne_eq, h.inj.eq_iff] using ih _ _ _ (hss.insert h e.1)
      · rw [if_neg hc, if_neg hc]
        simpa only [ne_eq, h.inj.eq_iff] using ih _ _ _ hss
  obtain ⟨w1, s1, s1', k1, k2, k3⟩ := key l (Num.ofNat 0) NSet.empty NSet.empty (fun x => by simp)
  exact ⟨w1, s1, s1', congrArg _ k1, congrArg _ k2, k3⟩

theorem SameGraph.facets {i : Nat} (hi : i < g.nbC) {m m' m1 : NMap Int} (hm : ∀ x, m'.find? (σ x) = m.find? x) {s s' : NSet}
    (hs : ImgSet σ s s') (hu : updateFacets g i m s = .ok m1) :
    ∃ m1', updateFacets g' (σ i) m' s' = .ok m1' ∧ ∀ x, m1'.find? (σ x) = m1.find? x := by
  unfold updateFacets at hu
  obtain ⟨m2, h1, hu⟩ := bind_ok_iff.1 hu
  obtain ⟨n, h2, hu⟩ := bind_ok_iff.1 hu
  cases hu
  have hat : ∀ (m : NMap Int) x, m.at! x = match m.find? x with | some v => .ok v | none => .error .outOfRange := by
    intro m x
    cases hx : m.find? x with
    | some v => exact NMap.at_eq.2 hx
    | none => unfold NMap.at!; rw [hx]
  have hperm : s'.elems.foldlM (fun (m : NMap Int) x => do
      let v ← m.at! x
      pure (m.insert x (v - 1))) m' = (s.elems.map σ).foldlM (fun (m : NMap Int) x => do
      let v ← m.at! x
      pure (m.insert x (v - 1))) m' := by
    refine foldlM_perm_inv (hs.perm h) (I := fun _ => True) (fun _ _ _ _ _ _ => trivial) ?_ m' trivial
    intro b x y _ _ _ hxy
    simp only [hat]
    cases hx : b.find? x with
    | none =>
      cases hy : b.find? y with
      | none => rfl
      | some w => simp only [ok_bind, error_bind, pure_bind, NMap.find?_insert, if_neg hxy, hx]
    | some v =>
      cases hy : b.find? y with
      | none => simp only [ok_bind, error_bind, pure_bind, NMap.find?_insert, if_neg (Ne.symm hxy), hy]
      | some w =>
        simp only [ok_bind, pure_bind, NMap.find?_insert, if_neg (Ne.symm hxy), if_neg hxy, hx, hy]
        rw [NMap.insert_comm _ hxy]
  obtain ⟨m2', h3, h4⟩ := foldlM_rel (R := fun (m m' : NMap Int) => ∀ x, m'.find? (σ x) = m.find? x)
    (f' := fun (m : NMap Int) x => do
      let v ← m.at! (σ x)
      pure (m.insert (σ x) (v - 1))) (fun a b b' c hb hc => by
      obtain ⟨v, hv, hc⟩ := bind_ok_iff.1 hc
      cases hc
      refine ⟨b'.insert (σ a) (v - 1), ?_, fun x => ?_⟩
      · rw [NMap.at_eq.2 ((hb a).trans (NMap.at_eq.1 hv)), ok_bind]; rfl
      · rw [NMap.find?_insert, NMap.find?_insert, hb]
        simp only [h.inj.eq_iff]) s.elems m m' m2 hm h1
  unfold updateFacets
  rw [hperm, List.foldlM_map, h3, ok_bind, hg.totalFaces h hi, h2, ok_bind]
  refine ⟨_, rfl, fun x => ?_⟩
  rw [NMap.find?_insert, NMap.find?_insert, h4, hs.card h]
  simp only [h.inj.eq_iff]

theorem SameGraph.basic {cw uf : Bool} {i : Nat} {f f' : Feats W} (hf : ImgFeats σ f f') {cc cc' : NSet} (hs : ImgSet σ cc cc')
    {r : Nat × Feats W} (hu : updateBasic cw uf g i f cc = .ok r) :
    ∃ f1', updateBasic cw uf g' (σ i) f' cc' = .ok (r.1, f1') ∧ ImgFeats σ r.2 f1' ∧ i < g.nbC := by
  unfold updateBasic at hu
  obtain ⟨v, h1, hu⟩ := bind_ok_iff.1 hu
  have hi : i < g.nbC := by
    rw [← hg.sizes.volumes]
    exact (List.getElem?_eq_some_iff.1 (rd_ok.1 h1)).1
  obtain ⟨w, s, s', k1, k2, k3⟩ := hg.shared h hi hs
  rw [k1, ok_bind] at hu
  unfold updateBasic
  rw [hg.volume h, h1, ok_bind, k2, ok_bind]
  obtain ⟨d, h2, hu⟩ := bind_ok_iff.1 hu
  have hd : ∃ d', withWeights cw g' (σ i) f' w { Feats.default with measure := Num.add f'.measure v, nInt := f'.nInt + s'.card } = .ok d' ∧
      ImgFeats σ d d' := by
    unfold withWeights at h2 ⊢
    cases cw with
    | false =>
      cases h2
      exact ⟨_, rfl, by rw [hf.measure], rfl, rfl, by simp only [hf.nInt, k3.card h], rfl, rfl, rfl, fun _ => rfl⟩
    | true =>
      simp only [if_true] at h2 ⊢
      unfold updateWeights at h2 ⊢
      rw [hg.totalWeight h hi]
      obtain ⟨x, h3, h2⟩ := bind_ok_iff.1 h2
      obtain ⟨t, h4, h3⟩ := bind_ok_iff.1 h3
      cases h3
      cases h2
      rw [h4]
      refine ⟨_, rfl, by rw [hf.measure], ?_, ?_, by simp only [hf.nInt, k3.card h], rfl, rfl, rfl, fun _ => rfl⟩
      · simp only [hf.ext]
      · simp only [hf.int]
  obtain ⟨d', h3, h4⟩ := hd
  rw [h3, ok_bind]
  cases uf with
  | false =>
    cases hu
    exact ⟨d', by simp only [k3.card h]; rfl, h4, hi⟩
  | true =>
    simp only [if_true] at hu ⊢
    obtain ⟨m, h5, hu⟩ := bind_ok_iff.1 hu
    cases hu
    obtain ⟨m', h6, h7⟩ := hg.facets h hi hf.facets k3 h5
    rw [h6, ok_bind, k3.card h]
    exact ⟨_, rfl, ⟨h4.measure, h4.ext, h4.int, h4.nInt, h4.sqMin, h4.sqDiam, h4.sum, h7⟩, hi⟩

variable (hW : LawfulLt W)
include hW

theorem SameGraph.geom {hh hh' : Hash} {i : Nat} {f f' : Feats W} (hf : ImgFeats σ f f') {cc cc' : NSet} (hs : ImgSet σ cc cc') :
    updateGeom g' hh' (σ i) f' cc' = updateGeom g hh i f cc := by
  obtain ⟨h2, e⟩ := hh.following 4 (hs.perm h)
  rw [updateGeom_hash hW g' hh' h2]
  unfold updateGeom
  rw [hg.center h, e, hf.sqDiam, hf.sqMin]
  simp only [List.foldlM_map, hg.center h]

theorem SameGraph.bary {i : Nat} {f f' : Feats W} (hf : ImgFeats σ f f') {cc cc' : NSet} (hs : ImgSet σ cc cc') :
    updateBary g' (σ i) f' cc' = updateBary g i f cc := by
  unfold updateBary
  rw [hg.center h, hg.volume h, hs.card h, hf.sum]

theorem SameGraph.maxBary {hh hh' : Hash} {i : Nat} {b : List W} {cc cc' : NSet} (hs : ImgSet σ cc cc') :
    CoMMA.maxBary g' hh' b (σ i) cc' = CoMMA.maxBary g hh b i cc := by
  obtain ⟨h2, e⟩ := hh.following 4 (hs.perm h)
  rw [maxBary_hash hW g' hh' h2]
  unfold CoMMA.maxBary
  rw [hg.center h, e]
  simp only [List.foldlM_map, hg.center h]

theorem SameGraph.minMax {hh hh' : Hash} {i : Nat} {b : List W} {m m' : NMap Int} (hm : ∀ x, m'.find? (σ x) = m.find? x)
    {cc cc' : NSet} (hs : ImgSet σ cc cc') :
    minMaxBary g' hh' b m' (σ i) cc' = minMaxBary g hh b m i cc := by
  obtain ⟨h2, e⟩ := hh.following 4 (hs.perm h)
  rw [minMaxBary_hash hW g' hh' h2]
  unfold minMaxBary minMaxFirst
  rw [hg.center h, e, hm]
  simp only [List.foldlM_map, hg.center h, hm]

theorem arValue_same {dim : Nat} {kind : ARKind} {cc cc' : NSet} (hs : ImgSet σ cc cc') {f f' : Feats W} (hf : ImgFeats σ f f') :
    arValue dim kind cc' f' = arValue dim kind cc f := by
  unfold arValue xOverRadius
  rw [hf.measure, hf.ext, hf.int, hf.sqMin, hf.sqDiam, hs.card h]

theorem SameGraph.compute {hh hh' : Hash} {kind : ARKind} {i : Nat} {f f' : Feats W} (hf : ImgFeats σ f f') {cc cc' : NSet}
    (hs : ImgSet σ cc cc') {n : Nat} {r : W} {f1 : Feats W} (hc : (arOf g hh kind).compute i f cc = .ok (n, r, f1)) :
    ∃ f1', (arOf g' hh' kind).compute (σ i) f' cc' = .ok (n, r, f1') ∧ ImgFeats σ f1 f1' := by
  have hdim := hg.img.dim
  unfold arOf at hc ⊢
  simp only at hc ⊢
  by_cases hb : kind.bary = true
  · rw [if_pos hb] at hc ⊢
    unfold arBary at hc ⊢
    obtain ⟨b, h1, hc⟩ := bind_ok_iff.1 hc
    obtain ⟨y, h2, hc⟩ := bind_ok_iff.1 hc
    obtain ⟨f2, k1, k2, _⟩ := hg.basic h hf hs h1
    rw [k1, ok_bind, hg.bary h hW hf hs, h2, ok_bind]
    simp only at hc ⊢
    by_cases hk : kind = .maxOverMinBary
    · rw [if_pos hk] at hc ⊢
      obtain ⟨m, h3, hc⟩ := bind_ok_iff.1 hc
      cases hc
      rw [hg.minMax h hW (m := b.2.facets) (hh := hh) k2.facets hs, h3]
      exact ⟨_, rfl, k2.measure, k2.ext, k2.int, k2.nInt, k2.sqMin, k2.sqDiam, rfl, k2.facets⟩
    · rw [if_neg hk] at hc ⊢
      obtain ⟨m, h3, hc⟩ := bind_ok_iff.1 hc
      cases hc
      rw [hg.maxBary h hW (hh := hh) hs, h3]
      refine ⟨{ f2 with
        sum := y.1 }, ?_, k2.measure, k2.ext, k2.int, k2.nInt, k2.sqMin, k2.sqDiam, rfl, k2.facets⟩
      rw [ok_bind, hdim]
      unfold xOverRadius
      simp only [k2.measure]
      rfl
  · rw [if_neg hb] at hc ⊢
    by_cases hgm : kind.geom = true
    · rw [if_pos hgm] at hc ⊢
      unfold arGeom at hc ⊢
      obtain ⟨b, h1, hc⟩ := bind_ok_iff.1 hc
      obtain ⟨y, h2, hc⟩ := bind_ok_iff.1 hc
      obtain ⟨f2, k1, k2, _⟩ := hg.basic h hf hs h1
      rw [k1, ok_bind, hg.geom h hW (hh := hh) hf hs, h2, ok_bind]
      cases hc
      have hi : ImgFeats σ { b.2 with
          sqDiam := y.1, sqMin := y.2 } { f2 with
          sqDiam := y.1, sqMin := y.2 } := ⟨k2.measure, k2.ext, k2.int, k2.nInt, rfl, rfl, k2.sum, k2.facets⟩
      refine ⟨_, ?_, hi⟩
      rw [hdim]
      exact congrArg (fun r => (Except.ok (b.1, r, _) : M (Nat × W × Feats W))) (arValue_same h hg hW hs hi)
    · rw [if_neg hgm] at hc ⊢
      unfold arPlain at hc ⊢
      obtain ⟨b, h1, hc⟩ := bind_ok_iff.1 hc
      obtain ⟨f2, k1, k2, _⟩ := hg.basic h hf hs h1
      rw [k1, ok_bind]
      cases hc
      refine ⟨_, ?_, k2⟩
      rw [hdim, arValue_same h hg hW hs k2]
      rfl

end features

/-! ### Growth -/

theorem FirstBest.img_rel {F F' : Type} (h : Renumbering σ τ) {R : Nat → Merit W → F → Prop} {R' : Nat → Merit W → F' → Prop}
    {S : F → F' → Prop} {l : List Nat} {c : Nat} {m : Merit W} {f : F}
    (hR : ∀ x ∈ l, ∀ m f, R x m f → ∃ f', R' (σ x) m f' ∧ S f f') (hb : FirstBest R l c m f) :
    ∃ f', FirstBest R' (l.map σ) (σ c) m f' ∧ S f f' := by
  obtain ⟨μ, h1, h2, h3, pre, post, h4, h5⟩ := hb
  have hc : c ∈ l := by rw [h4]; simp
  have hex : ∀ x ∈ l, ∃ f', R' (σ x) (μ x).1 f' ∧ S (μ x).2 f' := fun x hx => hR x hx _ _ (h1 x hx)
  obtain ⟨f0, _⟩ := hex c hc
  classical
  let ν : Nat → F' := fun x => if hx : x ∈ l then (hex x hx).choose else f0
  have hν : ∀ x ∈ l, R' (σ x) (μ x).1 (ν x) ∧ S (μ x).2 (ν x) := by
    intro x hx
    have : ν x = (hex x hx).choose := dif_pos hx
    rw [this]
    exact (hex x hx).choose_spec
  refine ⟨ν c, ⟨fun x => ((μ (τ x)).1, ν (τ x)), ?_, ?_, ?_, pre.map σ, post.map σ, by rw [h4]; simp, ?_⟩, ?_⟩
  · intro x hx
    obtain ⟨y, hy, rfl⟩ := List.mem_map.1 hx
    simp only [h.back]
    exact (hν y hy).1
  · simp only [h.back, h2]
  · intro x hx
    obtain ⟨y, hy, rfl⟩ := List.mem_map.1 hx
    simp only [h.back]
    exact h3 y hy
  · intro x hx
    obtain ⟨y, hy, rfl⟩ := List.mem_map.1 hx
    simp only [h.back]
    exact h5 y hy
  · have := (hν c hc).2
    rwa [h2] at this

section growth
variable {E E' : IsoEnv W (Feats W)} (h : Renumbering σ τ) (hE : ImgEnv σ E E') (hg : SameGraph σ E.g E'.g) (hW : LawfulLt W)
  {hh hh' : Hash} {kind : ARKind} (ha : E.ar = arOf E.g hh kind) (ha' : E'.ar = arOf E'.g hh' kind)
include h hE hg hW ha ha'

theorem HasMerit.img {d d' : NMap Nat} (hd : ImgMap σ d d') {cc cc' : NSet} (hs : ImgSet σ cc cc') {f fi f1 : Feats W}
    (hf : ImgFeats σ f fi) {c : Nat} {m : Merit W} (hm : HasMerit E d f cc c m f1) :
    ∃ f1', HasMerit E' d' fi cc' (σ c) m f1' ∧ ImgFeats σ f1 f1' := by
  obtain ⟨n, hn⟩ := hm.ar
  rw [ha] at hn
  obtain ⟨f1', k1, k2⟩ := hg.compute h hW (hh' := hh') hf hs hn
  exact ⟨f1', ⟨by rw [hm.faces, hE.graph.shared h hs], by rw [hd c]; exact hm.order, n, by rw [ha']; exact k1⟩, k2⟩

theorem LookAhead.img {al al' : NSet} (hal : ImgSet σ al al') {d d' : NMap Nat} (hd : ImgMap σ d d') (k : Nat) :
    ∀ {xs : List Nat} {f fi f1 : Feats W} {c : Nat} {m : Merit W}, ImgFeats σ f fi → LookAhead E al d k xs f c m f1 →
      ∃ f1', LookAhead E' al' d' k (xs.map σ) fi (σ c) m f1' ∧ ImgFeats σ f1 f1' := by
  induction k with
  | zero =>
    intro xs f fi f1 c m hf hm
    exact HasMerit.img h hE hg hW ha ha' hd (ImgSet.ofList h xs) hf hm
  | succ k ih =>
    rintro xs f fi f1 c m hf ⟨m0, l, h1, h2, h3⟩
    have e : (xs ++ [c]).map σ = xs.map σ ++ [σ c] := by simp
    obtain ⟨f1', k1, k2⟩ := HasMerit.img h hE hg hW ha ha' hd (ImgSet.ofList h xs) hf h1
    refine ⟨f1', ⟨m0, l.map σ, k1, by rw [← e]; exact hE.candidates h hal h2, ?_⟩, k2⟩
    rcases h3 with ⟨rfl, h3⟩ | ⟨c2, m2, f2, h3, h4⟩
    · exact Or.inl ⟨rfl, h3⟩
    · obtain ⟨f2', q1, _⟩ := h3.img_rel h (R' := LookAhead E' al' d' k (xs.map σ ++ [σ c]) f1') (S := ImgFeats σ)
        (fun x _ m g hx => by
          rw [← e]
          exact ih k2 hx)
      refine Or.inr ⟨σ c2, m2, f2', q1, ?_⟩
      rw [h4, ← e, hE.graph.shared h (ImgSet.ofList h _)]

theorem GreedySeq.img {d d' : NMap Nat} (hd : ImgMap σ d d') {hi : Nat} {xs : List Nat} {f : Feats W} (hs : GreedySeq E d hi xs f) :
    ∃ f', GreedySeq E' d' hi (xs.map σ) f' ∧ ImgFeats σ f f' := by
  induction hs with
  | @seed s f h1 =>
    rw [ha] at h1
    obtain ⟨f', k1, k2⟩ := hg.init h h1
    exact ⟨f', .seed (by rw [ha']; exact k1), k2⟩
  | @next xs l f f1 c m _ h2 h3 ih =>
    obtain ⟨fi, k1, k2⟩ := ih
    obtain ⟨f1', q1, q2⟩ := h3.img_rel h (R' := LookAhead E' d'.keySet d' (min (hi - (xs.map σ).length) E'.fcIter - 1) (xs.map σ) fi)
      (S := ImgFeats σ) (fun x _ m g hx => by
        rw [List.length_map, hE.fcIter]
        exact LookAhead.img h hE hg hW ha ha' hd.keySet hd _ k2 hx)
    rw [List.map_append]
    exact ⟨f1', .next k1 (hE.candidates h hd.keySet h2) q1, q2⟩

theorem GrownGreedily.img {d d' : NMap Nat} (hd : ImgMap σ d d') {hi : Nat} {xs : List Nat} (hs : GrownGreedily E d hi xs) :
    GrownGreedily E' d' hi (xs.map σ) := by
  obtain ⟨f, hf⟩ := hs
  obtain ⟨f', k, _⟩ := GreedySeq.img h hE hg hW ha ha' hd hf
  exact ⟨f', k⟩

end growth

end CoMMA
