import Verif.Model.Overflow
import Verif.Lemmas.AspectRatio
import Verif.Lemmas.Isotropic
/-! # Bounds of the integers of the aspect-ratio computers -/

set_option linter.unusedSectionVars false

namespace CoMMA

variable {W F : Type} [Num W]

theorem fits_ok {mx : Int} {l : List Int} (h : ∀ x ∈ l, -mx - 1 ≤ x ∧ x ≤ mx) : fits mx l = .ok () := by
  unfold fits
  rw [if_pos]
  rw [List.all_eq_true]
  intro x hx
  simp [h x hx]

theorem fits_iff {mx : Int} {l : List Int} {u : Unit} : fits mx l = .ok u ↔ ∀ x ∈ l, -mx - 1 ≤ x ∧ x ≤ mx := by
  refine ⟨?_, fits_ok⟩
  intro h
  unfold fits at h
  split at h
  · rename_i ha
    intro x hx
    simpa using (List.all_eq_true.1 ha) x hx
  · cases h

/-- two programs that agree on the results of the first part -/
theorem bind_congr_ok {α β : Type} {m : M α} {f f' : α → M β} (h : ∀ x, m = .ok x → f x = f' x) : (m >>= f) = (m >>= f') := by
  cases m with
  | ok a => exact h a rfl
  | error e => rfl

theorem bind_congr_inv {α β : Type} {m : M α} {P : α → Prop} {f f' : α → M β} (hm : Ok m P) (h : ∀ x, P x → f x = f' x) :
    (m >>= f) = (m >>= f') := bind_congr_ok (fun x hx => h x (hm.elim hx))

/-! ## Sums of numbers of neighbours -/

/-- number of neighbours of a cell -/
def deg (g : Graph W) (x : Nat) : Nat := (rowL g.rowPtr g.colInd x).length

/-- sum over a set of cells -/
def degSum (g : Graph W) (t : NSet) : Nat := (t.elems.map (deg g)).sum

theorem degSum_insert {g : Graph W} {t : NSet} {x : Nat} (h : x ∉ t) : degSum g (t.insert x) = degSum g t + deg g x := by
  have hp : (t.insert x).elems.Perm (x :: t.elems) :=
    NSet.elems_perm (List.nodup_cons.2 ⟨h, t.nodup⟩) (by simp)
  unfold degSum
  rw [(hp.map (deg g)).sum_nat, List.map_cons, List.sum_cons]
  omega

theorem degSum_le {g : Graph W} (hv : ValidCRS g.nbC g.rowPtr g.colInd) {t : NSet} (ht : ∀ x ∈ t, x < g.nbC) :
    degSum g t ≤ g.colInd.length := by
  have key : ∀ (l : List Nat), l.Pairwise (· < ·) → (∀ x ∈ l, x < g.nbC) → ∀ a, a ≤ g.nbC → (∀ x ∈ l, a ≤ x) →
      ∀ b, g.rowPtr[a]? = some b → (l.map (deg g)).sum + b ≤ g.colInd.length := by
    have mono : ∀ k a b, a + k ≤ g.nbC → g.rowPtr[a]? = some b → ∃ e, g.rowPtr[a + k]? = some e ∧ b ≤ e := by
      intro k
      induction k with
      | zero => intro a b _ hb; exact ⟨b, hb, Nat.le_refl _⟩
      | succ k ih =>
        intro a b hk hb
        obtain ⟨e, he, hbe⟩ := ih a b (by omega) hb
        obtain ⟨e', he', _⟩ := hv.getPtr (i := a + (k + 1)) hk
        exact ⟨e', he', Nat.le_trans hbe (hv.mono (a + k) e e' he he')⟩
    intro l
    induction l with
    | nil =>
      intro _ _ a ha _ b hb
      obtain ⟨b', hb', hle⟩ := hv.getPtr ha
      rw [hb] at hb'; cases hb'
      simpa using hle
    | cons x l ih =>
      intro hs hl a ha hax b hb
      obtain ⟨h1, h2⟩ := List.pairwise_cons.1 hs
      have hx := hl x (by simp)
      obtain ⟨c, e, hc, he, hce, hec, h5⟩ := hv.row hx g.colInd rfl
      have := ih h2 (fun y hy => hl y (by simp [hy])) (x + 1) (by omega) (fun y hy => h1 y hy) e he
      have hd : deg g x = e - c := by
        unfold deg rowL; rw [h5]; simp; omega
      obtain ⟨c', hc', hbc⟩ := mono (x - a) a b (by have := hax x (by simp); omega) hb
      rw [show a + (x - a) = x by have := hax x (by simp); omega, hc] at hc'
      cases hc'
      rw [List.map_cons, List.sum_cons, hd]
      omega
  obtain ⟨b, hb, _⟩ := hv.getPtr (i := 0) (by omega)
  have := key t.elems t.sorted ht 0 (by omega) (fun _ _ => Nat.zero_le _) b hb
  unfold degSum
  omega

theorem degSum_single {g : Graph W} {x : Nat} : degSum g (NSet.single x) = deg g x := by
  show ([x].map (deg g)).sum = _
  simp

theorem deg_le {g : Graph W} (hv : ValidCRS g.nbC g.rowPtr g.colInd) {x : Nat} (hx : x < g.nbC) : deg g x ≤ g.colInd.length := by
  rw [← degSum_single]
  exact degSum_le hv (by intro y hy; have : y = x := by simpa using hy
                         omega)

theorem nbShared_le {row : List Nat} {s : NSet} : nbShared row s ≤ row.length := by
  unfold nbShared
  rw [List.countP_eq_length_filter]
  refine (List.subperm_of_subset (s.nodup.filter _) ?_).length_le
  intro x hx
  simpa using (List.mem_filter.1 hx).2

theorem card_le_n {n : Nat} {t : NSet} (h : ∀ x ∈ t, x < n) : t.card ≤ n := by
  have := (List.subperm_of_subset t.nodup (l₂ := List.range n) (fun x hx => by simpa using h x hx)).length_le
  simpa [NSet.card] using this

/-- the integer type has room for what is counted on the mesh -/
structure Room (g : Graph W) (mx : Int) : Prop where
  bnd : ∀ b ∈ g.nBnd, b ≤ 3
  room : 3 * (g.colInd.length : Int) + 5 * g.nbC + 8 ≤ mx

/-! ## Aspect-ratio computers -/

theorem faceInts_ok {g : Graph W} (h : ValidCRS g.nbC g.rowPtr g.colInd) (hm : MeshSizes g) (hb : ∀ b ∈ g.nBnd, b ≤ 3) {i : Nat}
    (hi : i < g.nbC) : Ok (faceInts g i) (fun l => ∀ x ∈ l, 0 ≤ x ∧ x ≤ (g.colInd.length : Int) + 3) := by
  have hil : i < g.nBnd.length := by rw [hm.bnd]; exact hi
  obtain ⟨n, hn, hn'⟩ := nbNeighs_ok h hi
  have hd := deg_le h hi
  have := hb _ (List.getElem_mem hil)
  unfold deg at hd
  unfold faceInts
  rw [rd_of_lt hil, ok_bind, hn, ok_bind, Ok_pure]
  intro x hx
  simp only [List.mem_cons, List.not_mem_nil, or_false] at hx
  rcases hx with rfl | rfl <;> omega

theorem totalFaces_le {g : Graph W} (h : ValidCRS g.nbC g.rowPtr g.colInd) (hm : MeshSizes g) (hb : ∀ b ∈ g.nBnd, b ≤ 3) {i : Nat}
    (hi : i < g.nbC) : Ok (g.totalFaces i) (fun n => n ≤ g.colInd.length + 3) := by
  have hil : i < g.nBnd.length := by rw [hm.bnd]; exact hi
  obtain ⟨n, hn, hn'⟩ := nbNeighs_ok h hi
  have hd := deg_le h hi
  have := hb _ (List.getElem_mem hil)
  unfold deg at hd
  unfold Graph.totalFaces
  rw [rd_of_lt hil, ok_bind, hn, ok_bind, Ok_pure]
  omega

/-- bounds of the integers among the features -/
structure FeatB (g : Graph W) (cc : NSet) (f : Feats W) : Prop where
  nInt : f.nInt ≤ degSum g cc
  facets : ∀ x v, f.facets.find? x = some v → -((g.colInd.length : Int) + cc.card) ≤ v ∧ v ≤ (g.colInd.length : Int) + 3

theorem updateFacets_bound {g : Graph W} (h : ValidCRS g.nbC g.rowPtr g.colInd) (hm : MeshSizes g) (hb : ∀ b ∈ g.nBnd, b ≤ 3)
    {i : Nat} (hi : i < g.nbC) {f : NMap Int} {cc s : NSet} (hni : i ∉ cc) (hs : (s.card : Int) ≤ g.colInd.length)
    (hf : ∀ x v, f.find? x = some v → -((g.colInd.length : Int) + cc.card) ≤ v ∧ v ≤ (g.colInd.length : Int) + 3)
    {m : NMap Int} (he : updateFacets g i f s = .ok m) :
    ∀ x v, m.find? x = some v → -((g.colInd.length : Int) + (cc.insert i).card) ≤ v ∧ v ≤ (g.colInd.length : Int) + 3 := by
  unfold updateFacets at he
  obtain ⟨m1, hm1, he⟩ := bind_ok_iff.1 he
  obtain ⟨n, hn, he⟩ := bind_ok_iff.1 he
  cases he
  have hn' := (totalFaces_le h hm hb hi).elim hn
  have hc := NSet.card_insert hni
  have key : ∀ (l : List Nat) (f m1 : NMap Int), l.Nodup → l.foldlM (fun (m : NMap Int) x => do
      let v ← m.at! x
      pure (m.insert x (v - 1))) f = (.ok m1 : M _) →
      ∀ x v, m1.find? x = some v → f.find? x = some v ∨ (x ∈ l ∧ f.find? x = some (v + 1)) := by
    intro l
    induction l with
    | nil => intro f m1 _ h; cases h; intro x v h; exact Or.inl h
    | cons y l ih =>
      intro f m1 hnd h
      rw [List.foldlM_cons] at h
      obtain ⟨f1, h1, h2⟩ := bind_ok_iff.1 h
      obtain ⟨w, hw, h1⟩ := bind_ok_iff.1 h1
      cases h1
      obtain ⟨hy, hnd⟩ := List.nodup_cons.1 hnd
      intro x v hx
      have hyf := NMap.at_eq.1 hw
      rcases ih _ _ hnd h2 x v hx with h3 | ⟨h3, h4⟩
      · rw [NMap.find?_insert] at h3
        split at h3
        · rename_i hxy
          cases h3
          subst hxy
          exact Or.inr ⟨by simp, by rw [hyf]; congr 1; omega⟩
        · exact Or.inl h3
      · rw [NMap.find?_insert, if_neg (by rintro rfl; exact hy h3)] at h4
        exact Or.inr ⟨by simp [h3], h4⟩
  intro x v hx
  rw [NMap.find?_insert] at hx
  split at hx
  · cases hx
    omega
  · rcases key _ _ _ s.nodup hm1 x v hx with h1 | ⟨_, h1⟩
    · have := hf x v h1; omega
    · have := hf x _ h1; omega

theorem updateBasic_bound {g : Graph W} (h : ValidCRS g.nbC g.rowPtr g.colInd) (hm : MeshSizes g) (hb : ∀ b ∈ g.nBnd, b ≤ 3)
    {i : Nat} (hi : i < g.nbC) {cc : NSet} (hni : i ∉ cc) {cw uf : Bool} {f : Feats W} (hf : FeatB g cc f) {r : Nat × Feats W}
    (he : updateBasic cw uf g i f cc = .ok r) : FeatB g (cc.insert i) r.2 := by
  unfold updateBasic at he
  obtain ⟨v, _, he⟩ := bind_ok_iff.1 he
  obtain ⟨⟨sw, s⟩, hs, he⟩ := bind_ok_iff.1 he
  obtain ⟨d, hd, he⟩ := bind_ok_iff.1 he
  have hsc := ((sharedFaces_ok h hm hi hni).elim hs).2
  have hle : s.card ≤ deg g i := by
    unfold deg
    rw [← rowOf_eq h hi]
    simp only at hsc
    rw [hsc]
    exact nbShared_le
  have hdl := deg_le h hi
  have hdd : d.nInt = f.nInt + s.card ∧ d.facets = (Feats.default : Feats W).facets := by
    unfold withWeights at hd
    split at hd
    · obtain ⟨w, _, hd⟩ := bind_ok_iff.1 hd
      cases hd
      exact ⟨rfl, rfl⟩
    · cases hd
      exact ⟨rfl, rfl⟩
  have hn : f.nInt + s.card ≤ degSum g (cc.insert i) := by
    rw [degSum_insert hni]
    have := hf.nInt
    omega
  cases uf with
  | true =>
    simp only [if_true] at he
    obtain ⟨m, hm', he⟩ := bind_ok_iff.1 he
    cases he
    exact ⟨by simp only; rw [hdd.1]; exact hn, updateFacets_bound h hm hb hi hni (by omega) hf.facets hm'⟩
  | false =>
    simp only [Bool.false_eq_true, if_false] at he
    cases he
    refine ⟨by rw [hdd.1]; exact hn, ?_⟩
    intro x v hx
    rw [hdd.2] at hx
    simp [Feats.default] at hx

theorem arOf_basic {g : Graph W} {hh : Hash} {kind : ARKind} {i : Nat} {f : Feats W} {cc : NSet} {r : Nat × W × Feats W}
    (he : (arOf g hh kind).compute i f cc = .ok r) :
    ∃ cw uf b, updateBasic cw uf g i f cc = .ok b ∧ r.2.2.nInt = b.2.nInt ∧ r.2.2.facets = b.2.facets := by
  unfold arOf at he
  simp only at he
  split at he
  · unfold arBary at he
    obtain ⟨b, hb, he⟩ := bind_ok_iff.1 he
    refine ⟨_, _, b, hb, ?_⟩
    obtain ⟨y, _, he⟩ := bind_ok_iff.1 he
    split at he
    · obtain ⟨z, _, he⟩ := bind_ok_iff.1 he
      cases he
      exact ⟨rfl, rfl⟩
    · obtain ⟨z, _, he⟩ := bind_ok_iff.1 he
      cases he
      exact ⟨rfl, rfl⟩
  · split at he
    · unfold arGeom at he
      obtain ⟨b, hb, he⟩ := bind_ok_iff.1 he
      refine ⟨_, _, b, hb, ?_⟩
      obtain ⟨y, _, he⟩ := bind_ok_iff.1 he
      cases he
      exact ⟨rfl, rfl⟩
    · unfold arPlain at he
      obtain ⟨b, hb, he⟩ := bind_ok_iff.1 he
      refine ⟨_, _, b, hb, ?_⟩
      cases he
      exact ⟨rfl, rfl⟩

theorem basicInts_ok {g : Graph W} (h : ValidCRS g.nbC g.rowPtr g.colInd) (hm : MeshSizes g) {mx : Int} (hr : Room g mx)
    {i : Nat} (hi : i < g.nbC) {cc : NSet} (hcc : ∀ x ∈ cc, x < g.nbC) (hni : i ∉ cc) {uf : Bool} {f : Feats W} (hf : FeatB g cc f)
    (hu : uf = true → ∀ x ∈ cc, x ∈ f.facets.keys) :
    Ok (basicInts uf g i f cc) (fun l => ∀ x ∈ l, -mx - 1 ≤ x ∧ x ≤ mx) := by
  have hroom := hr.room
  have hdl := deg_le h hi
  have hsum := degSum_le h hcc
  have hn := hf.nInt
  have hcard := card_le_n hcc
  unfold basicInts
  refine Ok.bind (sharedFaces_ok h hm hi hni) ?_
  rintro ⟨sw, s⟩ ⟨h1, h2⟩
  simp only at h1 h2 ⊢
  have hle : s.card ≤ deg g i := by
    unfold deg
    rw [← rowOf_eq h hi, h2]
    exact nbShared_le
  refine Ok.bind (faceInts_ok h hm hr.bnd hi) ?_
  intro l hl
  refine Ok.bind (totalFaces_le h hm hr.bnd hi) ?_
  intro n hn'
  refine Ok.bind (P := fun l => ∀ x ∈ l, -mx - 1 ≤ x ∧ x ≤ mx) ?_ ?_
  · unfold facetInts
    split
    · rename_i huf
      refine (Ok.mapM (P := fun _ (b : Int) => -mx - 1 ≤ b ∧ b ≤ mx) ?_).mono ?_
      · intro x hx
        obtain ⟨v, hv⟩ := NMap.mem_keys.1 (hu huf x ((h1 x).1 hx).2)
        rw [NMap.at_eq.2 hv, ok_bind, Ok_pure]
        have := hf.facets x v hv
        omega
      · intro r hr x hx
        obtain ⟨a, _, ha⟩ := Forall₂.mem_right hr hx
        exact ha
    · intro x hx; cases hx
  · intro m hm' x hx
    simp only [List.mem_cons, List.mem_append] at hx
    rcases hx with rfl | rfl | rfl | hx | hx
    · omega
    · omega
    · omega
    · have := hl x hx; omega
    · exact hm' x hx

/-- the bounded computers succeed like the others, with bounds on the features -/
theorem arOfC_safe {g : Graph W} (h : ValidCRS g.nbC g.rowPtr g.colInd) (hm : MeshSizes g) (hh : Hash) (kind : ARKind)
    {D : Nat} (hD : ∀ c ∈ g.centers, c.length = D) {mx : Int} (hr : Room g mx) :
    ARSafe g (arOfC mx g hh kind) (fun cc f => FeatInv g kind D cc f ∧ FeatB g cc f) := by
  have hS := arOf_safeInv h hm hh kind hD
  have hroom := hr.room
  refine ⟨?_, ?_⟩
  · intro i hi
    unfold arOfC
    simp only
    refine Ok.bind (faceInts_ok h hm hr.bnd hi) ?_
    intro l hl
    rw [fits_ok (fun x hx => by have := hl x hx; omega), ok_bind]
    refine (hS.init i hi).and ?_
    obtain ⟨f, hf, _⟩ := (hS.init i hi).eq
    refine Ok.of_eq hf ?_
    unfold arOf Feats.init at hf
    simp only at hf
    obtain ⟨_, _, hf⟩ := bind_ok_iff.1 hf
    obtain ⟨_, _, hf⟩ := bind_ok_iff.1 hf
    obtain ⟨n, hn, hf⟩ := bind_ok_iff.1 hf
    obtain ⟨_, _, hf⟩ := bind_ok_iff.1 hf
    cases hf
    have hn' := (totalFaces_le h hm hr.bnd hi).elim hn
    refine ⟨Nat.zero_le _, ?_⟩
    intro x v hx
    simp only [NMap.find?_insert, NMap.find?_empty] at hx
    split at hx
    · cases hx; omega
    · cases hx
  · rintro cc f i ⟨hf, hfb⟩ hcc hi hni
    unfold arOfC
    simp only
    refine Ok.bind (basicInts_ok h hm hr hi hcc hni hfb (fun hu => hf.facets (by simpa using hu))) ?_
    intro l hl
    rw [fits_ok hl, ok_bind]
    have hc := hS.compute cc f i hf hcc hi hni
    obtain ⟨r, hre, hr1, hr2⟩ := hc.eq
    refine Ok.of_eq hre ⟨hr1, hr2, ?_⟩
    obtain ⟨cw, uf, b, hb, hb1, hb2⟩ := arOf_basic hre
    have := updateBasic_bound h hm hr.bnd hi hni hfb hb
    exact ⟨by rw [hb1]; exact this.nInt, by rw [hb2]; exact this.facets⟩

end CoMMA
