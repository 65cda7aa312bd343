import Verif.Lemmas.Growth
import Verif.Model.AspectRatio
/-! # The aspect-ratio computers never fail and count shared faces exactly -/

set_option linter.unusedSectionVars false

namespace CoMMA

variable {W : Type} [Num W]

theorem weights_eq {g : Graph W} (h : ValidCRS g.nbC g.rowPtr g.colInd) (hv : g.values.length = g.colInd.length)
    {i : Nat} (hi : i < g.nbC) :
    g.weights i = .ok (rowL g.rowPtr g.values i) ∧ (rowL g.rowPtr g.values i).length = (rowL g.rowPtr g.colInd i).length := by
  refine ⟨h.rowM_eq hi _ hv, ?_⟩
  obtain ⟨b, e, hb, he, hbe, hec, h5⟩ := h.row hi g.values hv
  obtain ⟨b', e', hb', he', hbe', hec', h5'⟩ := h.row hi g.colInd rfl
  rw [hb] at hb'; cases hb'
  rw [he] at he'; cases he'
  have hv' := hv
  have h1 : (rowL g.rowPtr g.values i).length = e - b := by
    unfold rowL; rw [h5]; simp; omega
  have h2 : (rowL g.rowPtr g.colInd i).length = e - b := by
    unfold rowL; rw [h5']; simp; omega
  rw [h1, h2]

theorem sqDist_ok {a b : List W} (h : a.length ≤ b.length) : Ok (sqDist a b) (fun _ => True) := by
  unfold sqDist
  refine Ok.foldlM trivial ?_
  intro i hi acc _
  have hi' : i < a.length := by simpa using hi
  rw [rd_of_lt hi', ok_bind, rd_of_lt (show i < b.length by omega), ok_bind]
  trivial

theorem totalFaces_ok {g : Graph W} (h : ValidCRS g.nbC g.rowPtr g.colInd) (hm : MeshSizes g) {i : Nat}
    (hi : i < g.nbC) : Ok (g.totalFaces i) (fun _ => True) := by
  unfold Graph.totalFaces
  obtain ⟨n, hn, _⟩ := nbNeighs_ok h hi
  rw [rd_of_lt (show i < g.nBnd.length by rw [hm.bnd]; exact hi), ok_bind, hn, ok_bind]
  trivial

theorem totalWeight_ok {g : Graph W} (h : ValidCRS g.nbC g.rowPtr g.colInd) (hm : MeshSizes g) {i : Nat}
    (hi : i < g.nbC) : Ok (g.totalWeight i) (fun _ => True) := by
  unfold Graph.totalWeight Graph.boundaryWeight
  obtain ⟨n, hn, _⟩ := nbNeighs_ok h hi
  rw [(weights_eq h hm.values hi).1, ok_bind, rd_of_lt (show i < g.nBnd.length by rw [hm.bnd]; exact hi), ok_bind]
  split
  · trivial
  · rw [ok_bind, hn, ok_bind]; trivial

theorem sharedFaces_ok {g : Graph W} (h : ValidCRS g.nbC g.rowPtr g.colInd) (hm : MeshSizes g) {i : Nat}
    (hi : i < g.nbC) {cc : NSet} (hcc : i ∉ cc) :
    Ok (sharedFaces g i cc) (fun r => (∀ x, x ∈ r.2 ↔ x ∈ rowL g.rowPtr g.colInd i ∧ x ∈ cc) ∧
      r.2.card = nbShared (rowOf g.rowPtr g.colInd i) cc) := by
  obtain ⟨hw, hlen⟩ := weights_eq h hm.values hi
  unfold sharedFaces
  rw [neighs_eq h hi, ok_bind, hw, ok_bind, Ok_pure]
  have key : ∀ (l : List (Nat × W)) (a : W × NSet) (x : Nat),
      x ∈ (l.foldl (fun (a : W × NSet) e => if e.1 ≠ i ∧ cc.has e.1 = true then (Num.add a.1 e.2, a.2.insert e.1) else a) a).2 ↔
        x ∈ a.2 ∨ (x ∈ l.map Prod.fst ∧ x ∈ cc) := by
    intro l
    induction l with
    | nil => simp
    | cons e l ih =>
      intro a x
      rw [List.foldl_cons, ih]
      simp only [List.map_cons, List.mem_cons]
      split
      · rename_i hc
        simp only [NSet.mem_insert]
        have := NSet.has_iff.1 hc.2
        constructor
        · rintro ((rfl | h) | ⟨h1, h2⟩)
          · exact Or.inr ⟨Or.inl rfl, this⟩
          · exact Or.inl h
          · exact Or.inr ⟨Or.inr h1, h2⟩
        · rintro (h | ⟨rfl | h1, h2⟩)
          · exact Or.inl (Or.inr h)
          · exact Or.inl (Or.inl rfl)
          · exact Or.inr ⟨h1, h2⟩
      · rename_i hc
        constructor
        · rintro (h | ⟨h1, h2⟩)
          · exact Or.inl h
          · exact Or.inr ⟨Or.inr h1, h2⟩
        · rintro (h | ⟨rfl | h1, h2⟩)
          · exact Or.inl h
          · exact absurd ⟨fun he => hcc (by rw [← he]; exact h2), NSet.has_iff.2 h2⟩ hc
          · exact Or.inr ⟨h1, h2⟩
  have hmap : ((rowL g.rowPtr g.colInd i).zip (rowL g.rowPtr g.values i)).map Prod.fst = rowL g.rowPtr g.colInd i :=
    List.map_fst_zip (by omega)
  have hmem : ∀ x, x ∈ (((rowL g.rowPtr g.colInd i).zip (rowL g.rowPtr g.values i)).foldl (fun (a : W × NSet) e =>
      if e.1 ≠ i ∧ cc.has e.1 = true then (Num.add a.1 e.2, a.2.insert e.1) else a) (Num.ofNat 0, NSet.empty)).2 ↔
      x ∈ rowL g.rowPtr g.colInd i ∧ x ∈ cc := by
    intro x; rw [key, hmap]; simp
  refine ⟨hmem, ?_⟩
  rw [NSet.card_perm (l := cc.elems.filter (fun y => (rowL g.rowPtr g.colInd i).contains y)) (cc.nodup.filter _)]
  · unfold nbShared
    rw [List.countP_eq_length_filter, rowOf_eq h hi]
  · intro x
    rw [hmem]
    simp only [List.mem_filter, NSet.mem_elems, List.contains_iff_mem]
    tauto

theorem updateFacets_ok {g : Graph W} (h : ValidCRS g.nbC g.rowPtr g.colInd) (hm : MeshSizes g) {i : Nat}
    (hi : i < g.nbC) {m : NMap Int} {s : NSet} (hs : ∀ x ∈ s, x ∈ m.keys) :
    Ok (updateFacets g i m s) (fun m' => ∀ x, x ∈ m'.keys ↔ x = i ∨ x ∈ m.keys) := by
  unfold updateFacets
  refine Ok.bind (P := fun (m' : NMap Int) => ∀ x, x ∈ m'.keys ↔ x ∈ m.keys) ?_ ?_
  · refine Ok.foldlM (fun x => Iff.rfl) ?_
    intro x hx m' hm'
    obtain ⟨v, hv⟩ := NMap.mem_keys.1 ((hm' x).2 (hs x hx))
    rw [NMap.at_eq.2 hv, ok_bind, Ok_pure]
    intro y
    rw [NMap.mem_keys_insert, hm']
    constructor
    · rintro (rfl | h)
      · exact hs y hx
      · exact h
    · exact Or.inr
  · intro m' hm'
    refine Ok.bind (totalFaces_ok h hm hi) ?_
    intro n _
    rw [Ok_pure]
    intro x
    rw [NMap.mem_keys_insert, hm']

theorem updateBasic_ok {g : Graph W} (h : ValidCRS g.nbC g.rowPtr g.colInd) (hm : MeshSizes g) {i : Nat}
    (hi : i < g.nbC) {cc : NSet} (hcc : i ∉ cc) (cw uf : Bool) {f : Feats W}
    (hf : uf = true → ∀ x ∈ cc, x ∈ f.facets.keys) :
    Ok (updateBasic cw uf g i f cc) (fun r => r.1 = nbShared (rowOf g.rowPtr g.colInd i) cc ∧
      (uf = true → ∀ x ∈ cc.insert i, x ∈ r.2.facets.keys)) := by
  unfold updateBasic
  rw [rd_of_lt (show i < g.volumes.length by rw [hm.volumes]; exact hi), ok_bind]
  refine Ok.bind (sharedFaces_ok h hm hi hcc) ?_
  rintro ⟨sw, s⟩ ⟨h1, h2⟩
  simp only at h1 h2 ⊢
  refine Ok.bind (P := fun _ => True) ?_ ?_
  · unfold withWeights updateWeights
    split
    · refine Ok.bind (P := fun _ => True) (Ok.bind (totalWeight_ok h hm hi) (fun _ _ => trivial)) (fun _ _ => trivial)
    · trivial
  · intro d _
    cases uf with
    | true =>
      simp only [if_true]
      refine Ok.bind (updateFacets_ok h hm hi (fun x hx => hf rfl x ((h1 x).1 hx).2)) ?_
      intro m hm'
      refine ⟨h2, fun _ x hx => ?_⟩
      simp only
      rw [hm']
      rcases NSet.mem_insert.1 hx with rfl | hx
      · exact Or.inl rfl
      · exact Or.inr (hf rfl x hx)
    | false =>
      simp only [Bool.false_eq_true, if_false]
      exact ⟨h2, fun hh => absurd hh (by simp)⟩

theorem updateBary_ok {g : Graph W} (hm : MeshSizes g) {D : Nat} (hD : ∀ c ∈ g.centers, c.length = D) {i : Nat}
    (hi : i < g.nbC) {f : Feats W} (hf : f.sum.length = D) (cc : NSet) :
    Ok (updateBary g i f cc) (fun r => r.1.length = D ∧ r.2.length = D) := by
  have hic : i < g.centers.length := by rw [hm.centers]; exact hi
  unfold updateBary
  rw [rd_of_lt hic, ok_bind, rd_of_lt (show i < g.volumes.length by rw [hm.volumes]; exact hi), ok_bind]
  have hlen : g.centers[i].length = D := hD _ (List.getElem_mem hic)
  simp only
  refine Ok.mono (Ok.foldlM_prefix (I := fun pre (a : List W × List W) => a.1.length = D ∧ a.2.length = pre.length)
    ⟨hf, rfl⟩ ?_) ?_
  · rintro pre j post a hl ⟨h1, h2⟩
    have hj : j < D := by
      have : j ∈ List.range g.centers[i].length := by rw [hl]; simp
      rw [hlen] at this; simpa using this
    rw [rd_of_lt (show j < g.centers[i].length by omega), ok_bind, rd_of_lt (show j < a.1.length by omega), ok_bind,
      wr_of_lt (show j < a.1.length by omega), ok_bind, Ok_pure]
    simp [h1, h2]
  · rintro a ⟨h1, h2⟩
    exact ⟨h1, by rw [h2, List.length_range, hlen]⟩

/-- invariant of the features -/
structure FeatInv (g : Graph W) (kind : ARKind) (D : Nat) (cc : NSet) (f : Feats W) : Prop where
  sum : kind.bary = true → f.sum.length = D
  facets : kind = .maxOverMinBary → ∀ x ∈ cc, x ∈ f.facets.keys

theorem arOf_safeInv {g : Graph W} (h : ValidCRS g.nbC g.rowPtr g.colInd) (hm : MeshSizes g) (hh : Hash) (kind : ARKind)
    {D : Nat} (hD : ∀ c ∈ g.centers, c.length = D) : ARSafe g (arOf g hh kind) (FeatInv g kind D) := by
  refine ⟨?_, ?_⟩
  · intro i hi
    have hic : i < g.centers.length := by rw [hm.centers]; exact hi
    unfold arOf Feats.init
    simp only
    rw [rd_of_lt (show i < g.volumes.length by rw [hm.volumes]; exact hi), ok_bind]
    refine Ok.bind (totalWeight_ok h hm hi) ?_
    intro e _
    refine Ok.bind (totalFaces_ok h hm hi) ?_
    intro n _
    rw [rd_of_lt hic, ok_bind, Ok_pure]
    refine ⟨fun _ => by simp [hD _ (List.getElem_mem hic)], ?_⟩
    intro _ x hx
    simp only [NMap.mem_keys_insert]
    exact Or.inl (by simpa using hx)
  · intro cc f i hf hcc hi hni
    have hic : i < g.centers.length := by rw [hm.centers]; exact hi
    have hord : ∀ x ∈ hh.ord 4 cc.elems, x ∈ cc := fun x hx => (hh.perm 4 cc.elems).mem_iff.1 hx
    have hcen : ∀ x ∈ cc, ∃ c, rd g.centers x = .ok c ∧ c.length = D := by
      intro x hx
      have hxc : x < g.centers.length := by rw [hm.centers]; exact hcc x hx
      exact ⟨_, rd_of_lt hxc, hD _ (List.getElem_mem hxc)⟩
    have hceni : ∃ c, rd g.centers i = .ok c ∧ c.length = D := ⟨_, rd_of_lt hic, hD _ (List.getElem_mem hic)⟩
    obtain ⟨ci, hci, hciD⟩ := hceni
    unfold arOf
    simp only
    split
    · rename_i hb
      unfold arBary
      refine Ok.bind (updateBasic_ok h hm hi hni _ _ (f := f) (fun hk => hf.facets (by simpa using hk))) ?_
      rintro ⟨n, nf⟩ ⟨h1, h2⟩
      simp only at h1 h2 ⊢
      refine Ok.bind (updateBary_ok hm hD hi (hf.sum hb) cc) ?_
      rintro ⟨sum, bary⟩ ⟨h3, h4⟩
      simp only at h3 h4 ⊢
      split
      · rename_i hk
        unfold minMaxBary
        refine Ok.bind (P := fun _ => True) (Ok.bind (P := fun _ => True) ?_ ?_) ?_
        · unfold minMaxFirst
          split
          · rw [hci, ok_bind]
            exact Ok.bind (sqDist_ok (by omega)) (fun _ _ => trivial)
          · trivial
        · intro s _
          refine Ok.foldlM trivial ?_
          intro x hx a _
          split
          · obtain ⟨c, hc, hcD⟩ := hcen x (hord x hx)
            rw [hc, ok_bind]
            exact Ok.bind (sqDist_ok (by omega)) (fun _ _ => trivial)
          · trivial
        · intro m _
          exact ⟨h1, fun _ => h3, fun _ => h2 (by simp [hk])⟩
      · rename_i hk
        refine Ok.bind (P := fun _ => True) ?_ ?_
        · unfold maxBary
          rw [hci, ok_bind]
          refine Ok.bind (sqDist_ok (by omega)) ?_
          intro d _
          refine Ok.foldlM trivial ?_
          intro x hx a _
          obtain ⟨c, hc, hcD⟩ := hcen x (hord x hx)
          rw [hc, ok_bind]
          exact Ok.bind (sqDist_ok (by omega)) (fun _ _ => trivial)
        · intro m _
          exact ⟨h1, fun _ => h3, fun hh => absurd hh hk⟩
    · rename_i hb
      have hne : kind ≠ .maxOverMinBary := by rintro rfl; exact hb rfl
      split
      · unfold arGeom
        refine Ok.bind (updateBasic_ok h hm hi hni false false (f := f) (fun hk => absurd hk (by simp))) ?_
        rintro ⟨n, nf⟩ ⟨h1, h2⟩
        refine Ok.bind (P := fun _ => True) ?_ ?_
        · unfold updateGeom
          rw [hci, ok_bind]
          refine Ok.foldlM trivial ?_
          intro x hx a _
          obtain ⟨c, hc, hcD⟩ := hcen x (hord x hx)
          rw [hc, ok_bind]
          exact Ok.bind (sqDist_ok (by omega)) (fun _ _ => trivial)
        · intro y _
          exact ⟨h1, fun hh => absurd hh hb, fun hh => absurd hh hne⟩
      · unfold arPlain
        refine Ok.bind (updateBasic_ok h hm hi hni kind.weights false (f := f) (fun hk => absurd hk (by simp))) ?_
        rintro ⟨n, nf⟩ ⟨h1, h2⟩
        exact ⟨h1, fun hh => absurd hh hb, fun hh => absurd hh hne⟩

theorem arOf_safe {g : Graph W} (h : ValidCRS g.nbC g.rowPtr g.colInd) (hm : MeshSizes g) (hh : Hash) (kind : ARKind) :
    ∃ Inv, ARSafe g (arOf g hh kind) Inv := by
  obtain ⟨D, hD⟩ := hm.coords
  exact ⟨_, arOf_safeInv h hm hh kind hD⟩

end CoMMA
