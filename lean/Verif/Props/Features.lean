import Verif.Lemmas.Shape
import Verif.Props.Growth
import Verif.Props.CoarseGraph
/-! # C31, C54, C55: features and aspect ratio of a growing coarse cell -/

namespace CoMMA

variable {W : Type} [Num W]

theorem featsAfter_ok {g : Graph W} {kind : ARKind} (hF : FeatInput g kind) (hk : kind ≠ .unknown) (h : Hash)
    {cells : List Nat} (hne : cells ≠ []) (hn : cells.Nodup) (hlt : ∀ i ∈ cells, i < g.nbC) :
    Ok (featsAfter (arOf g h kind) cells) (FeatsOf g kind (NSet.ofList cells)) := by
  cases cells with
  | nil => exact absurd rfl hne
  | cons x xs =>
    unfold featsAfter
    refine Ok.bind (featsOf_init hF (hlt x (by simp))) ?_
    intro f hf
    refine Ok.bind (P := fun (r : Feats W × NSet) => r.2 = NSet.ofList (x :: xs) ∧ FeatsOf g kind r.2 r.1) ?_ ?_
    · refine Ok.mono (Ok.foldlM_prefix (I := fun pre (r : Feats W × NSet) => r.2 = NSet.ofList (x :: pre) ∧ FeatsOf g kind r.2 r.1)
        ⟨rfl, hf⟩ ?_) (fun r hr => hr)
      rintro pre y post ⟨f, s⟩ hl ⟨h1, h2⟩
      simp only at h1 h2 ⊢
      have hy : y ∈ x :: xs := by rw [hl]; simp
      have hmem : ∀ z, z ∈ s ↔ z ∈ x :: pre := fun z => by rw [h1, NSet.mem_ofList]
      have hys : y ∉ s := by
        rw [hmem]
        have hn' : (x :: pre ++ y :: post).Nodup := by rw [List.cons_append, ← hl]; exact hn
        exact fun hh => (List.disjoint_of_nodup_append hn' hh) (by simp)
      refine Ok.bind (featsOf_compute hF h hk (hlt y hy) (cc := s) ?_ ⟨x, (hmem x).2 (by simp)⟩ hys h2) ?_
      · intro z hz
        refine hlt z ?_
        rw [hl]
        have := (hmem z).1 hz
        simp only [List.mem_cons, List.mem_append] at this ⊢
        rcases this with h | h
        · exact Or.inl h
        · exact Or.inr (Or.inl h)
      · rintro ⟨n, r, f'⟩ ⟨_, _, h5⟩
        refine ⟨?_, h5⟩
        show s.insert y = _
        rw [← List.cons_append, ofList_append, h1]
    · rintro ⟨f, s⟩ ⟨h1, h2⟩
      simp only at h1 h2 ⊢
      rw [← h1]
      exact h2

/-- **C31** Whatever the order in which the cells of a coarse cell are added, the features kept
are those of the set: total volume, number of internal faces, and, as far as the kind of
aspect ratio uses them, internal and external weight, largest and smallest squared distance
of two centers, sum of the centers multiplied by the volumes, number of free faces of each
cell. -/
theorem C31_features {g : Graph W} {kind : ARKind} (hF : FeatInput g kind) (hk : kind ≠ .unknown) (h : Hash)
    {cells : List Nat} (hne : cells ≠ []) (hn : cells.Nodup) (hlt : ∀ i ∈ cells, i < g.nbC) :
    ∃ f, featsAfter (arOf g h kind) cells = .ok f ∧ FeatsOf g kind (NSet.ofList cells) f :=
  (featsAfter_ok hF hk h hne hn hlt).eq

/-- **C54** The aspect ratio computed for a coarse cell and a further cell is the one of the
two together, computed from the whole set; the number of faces in common is the number of
neighbours of the cell in the coarse cell. -/
theorem C54_ratio {g : Graph W} {kind : ARKind} (hF : FeatInput g kind) (hk : kind ≠ .unknown) (h : Hash)
    {cells : List Nat} (hne : cells ≠ []) {c : Nat} (hn : (cells ++ [c]).Nodup) (hlt : ∀ i ∈ cells ++ [c], i < g.nbC) :
    ∃ f n r f', featsAfter (arOf g h kind) cells = .ok f ∧
      (arOf g h kind).compute c f (NSet.ofList cells) = .ok (n, r, f') ∧
      n = nbShared (rowOf g.rowPtr g.colInd c) (NSet.ofList cells) ∧
      RatioOf g kind (NSet.ofList (cells ++ [c])) r := by
  have ⟨n1, _, n2⟩ := List.nodup_append.1 hn
  obtain ⟨f, h1, h2⟩ := C31_features hF hk h hne n1 (fun i hi => hlt i (by simp [hi]))
  obtain ⟨y, hy⟩ := List.exists_mem_of_ne_nil _ hne
  obtain ⟨⟨n, r, f'⟩, h3, h4, h5, _⟩ := (featsOf_compute hF h hk (i := c) (hlt c (by simp)) (cc := NSet.ofList cells)
    (fun z hz => hlt z (by simp [NSet.mem_ofList.1 hz])) ⟨y, NSet.mem_ofList.2 hy⟩
    (fun hh => n2 c (NSet.mem_ofList.1 hh) c (by simp) rfl) h2).eq
  refine ⟨f, n, r, f', h1, h3, h4, ?_⟩
  rw [ofList_append]
  exact h5

theorem LargestFrom.unique (hW : LawfulLt W) {fl : W} {R : W → Prop} {m m' : W} (h : LargestFrom fl R m)
    (h' : LargestFrom fl R m') : m = m' := by
  obtain ⟨a1, a2, a3⟩ := h
  obtain ⟨b1, b2, b3⟩ := h'
  apply hW.total
  · rcases b1 with rfl | b1
    · exact a2
    · exact a3 _ b1
  · rcases a1 with rfl | a1
    · exact b2
    · exact b3 _ a1

theorem SmallestFrom.unique (hW : LawfulLt W) {cap : W} {R : W → Prop} {m m' : W} (h : SmallestFrom cap R m)
    (h' : SmallestFrom cap R m') : m = m' := by
  obtain ⟨a1, a2, a3⟩ := h
  obtain ⟨b1, b2, b3⟩ := h'
  apply hW.total
  · rcases a1 with rfl | a1
    · exact b2
    · exact b3 _ a1
  · rcases b1 with rfl | b1
    · exact a2
    · exact a3 _ b1

theorem RatioOf.unique (hW : LawfulLt W) {g : Graph W} {kind : ARKind} (hk : kind ≠ .unknown) {s : NSet} (hs : ∃ i, i ∈ s) {r r' : W}
    (h : RatioOf g kind s r) (h' : RatioOf g kind s r') : r = r' := by
  obtain ⟨i, hi⟩ := hs
  cases kind
  · obtain ⟨d, h1, rfl⟩ := h
    obtain ⟨d', h1', rfl⟩ := h'
    rw [h1.unique hW h1']
  · obtain ⟨d, e, h1, h2, rfl⟩ := h
    obtain ⟨d', e', h1', h2', rfl⟩ := h'
    rw [h1.unique hW h1', h2.unique hW h2']
  · exact LargestFrom.unique hW h h'
  · exact h.trans h'.symm
  · exact h.trans h'.symm
  · exact h.trans h'.symm
  · exact h.trans h'.symm
  · obtain ⟨D, d, h0, h1, h2, rfl⟩ := h
    obtain ⟨D', d', h0', h1', h2', rfl⟩ := h'
    obtain rfl : D = D' := by rw [← h0 i hi, ← h0' i hi]
    rw [hW.total d d' (h1 _ h2') (h1' _ h2)]
  · obtain ⟨D, d, e, h0, h1, h2, rfl⟩ := h
    obtain ⟨D', d', e', h0', h1', h2', rfl⟩ := h'
    obtain rfl : D = D' := by rw [← h0 i hi, ← h0' i hi]
    rw [h1.unique hW h1', h2.unique hW h2']
  · exact h.trans h'.symm
  · exact absurd rfl hk

/-- **C54** The aspect ratio found for a set of cells does not depend on the order in which the
cells were put together. -/
theorem C54_order {g : Graph W} {kind : ARKind} (hF : FeatInput g kind) (hk : kind ≠ .unknown) (hW : LawfulLt W) (h h' : Hash)
    {cells cells' : List Nat} (hne : cells ≠ []) (hne' : cells' ≠ []) {c c' : Nat} (hn : (cells ++ [c]).Nodup)
    (hp : (cells ++ [c]).Perm (cells' ++ [c'])) (hlt : ∀ i ∈ cells ++ [c], i < g.nbC) :
    ∃ f f' n n' r f1 f1', featsAfter (arOf g h kind) cells = .ok f ∧ featsAfter (arOf g h' kind) cells' = .ok f' ∧
      (arOf g h kind).compute c f (NSet.ofList cells) = .ok (n, r, f1) ∧
      (arOf g h' kind).compute c' f' (NSet.ofList cells') = .ok (n', r, f1') := by
  obtain ⟨f, n, r, f1, a1, a2, _, a3⟩ := C54_ratio hF hk h hne hn hlt
  obtain ⟨f', n', r', f1', b1, b2, _, b3⟩ := C54_ratio hF hk h' hne' (hp.nodup_iff.1 hn) (fun i hi => hlt i (hp.mem_iff.2 hi))
  have hset : NSet.ofList (cells ++ [c]) = NSet.ofList (cells' ++ [c']) := by
    apply NSet.ext; intro a; rw [NSet.mem_ofList, NSet.mem_ofList, hp.mem_iff]
  rw [← hset] at b3
  obtain rfl := a3.unique hW hk ⟨c, NSet.mem_ofList.2 (by simp)⟩ b3
  exact ⟨f, f', n, n', r, f1, f1', a1, b1, a2, b2⟩

/-- **C55** Each coarse cell of an isotropic call without correction is grown and cut as in
C41, and the candidates are compared by the aspect ratio that the coarse cell would have with
each of them, computed from the whole set of cells. -/
theorem C55_shape {P : Platform} {a : Args W} {o : Outs} {n : Nat} (hm : ValidMesh a n) (hp : ValidParams P a)
    (hW : LawfulLt W) (hu : UniqueRows a.rowPtr a.colInd) (hl : NoSelfLoop a.rowPtr a.colInd)
    (hF : FeatInput (graphOf a) a.aspect)
    (hcor : a.correction = false) (hoff : WithoutLines a o) {k : Nat} (hk : k ∈ (agglomerateOneLevel P a o).1.fcToCc) :
    ∃ E agg seed order s, CallEnv P a E ∧
      (∀ i : Nat, i < n → ∃ j, (agglomerateOneLevel P a o).1.fcToCc[i]? = some j ∧ agg[i]? = some (decide (j < k))) ∧
      GrownCell E (ShapedSeq E a.aspect) agg seed order s ∧
      ∀ i : Nat, (agglomerateOneLevel P a o).1.fcToCc[i]? = some k ↔ i ∈ s := by
  obtain ⟨c, agg, seed, order, s, hc, h1, h2, h3⟩ := cell_greedy hm hp hW hu hl hcor hoff hk
  have hE := isoInput hm hp hc
  have hn : (isoEnvOf P a c).g.nbC = n := graphOf_nbC hm
  obtain ⟨f, hf, hlen⟩ := C01_total (o := o) hm hp (fun h => by rw [hcor] at h; cases h) hoff
  have hmin := hE.minCard
  refine ⟨isoEnvOf P a c, agg, seed, order, s, callEnv hp hc, h1, h2.mono (by omega) ?_, h3⟩
  rintro d hi xs hhead hs ⟨ft, hg⟩
  have hsl : seed < (isoEnvOf P a c).g.nbC := by
    have := (h3 seed).2 hs
    rw [hf] at this
    have := (List.getElem?_eq_some_iff.1 this).1
    rw [hlen] at this
    omega
  exact (greedy_shaped (E := isoEnvOf P a c) (kind := a.aspect) hF hp.aspect rfl hg hhead hsl).1

/-! ## Concrete cases -/

theorem weightTo_out {g : Graph W} (h : ValidCRS g.nbC g.rowPtr g.colInd) {i : Nat} (hi : g.nbC ≤ i) (p : Nat → Bool) :
    weightTo g i p = Num.ofNat 0 := by
  apply weightTo_none
  intro e he
  exfalso
  unfold facesOf rowOf at he
  have h2 : g.rowPtr[i + 1]? = none := List.getElem?_eq_none (by have := h.rows; omega)
  rw [h2] at he
  cases hb : g.rowPtr[i]? <;> rw [hb] at he <;> simp at he

theorem weightTo_outside {g : Graph W} (h : ValidCRS g.nbC g.rowPtr g.colInd) (hv : g.values.length = g.colInd.length)
    {i j : Nat} (hi : i < g.nbC) (hj : g.nbC ≤ j) : weightTo g i (fun n => decide (n = j)) = Num.ofNat 0 := by
  apply weightTo_none
  intro e he
  have := (h.adj_lt (facesOf_adj h hv hi he)).2
  simp
  omega

/-- weights are the same on both sides if they are for the cells of the graph -/
theorem symWeights_of {g : Graph W} (h : ValidCRS g.nbC g.rowPtr g.colInd) (hv : g.values.length = g.colInd.length)
    (hc : ∀ i, i < g.nbC → ∀ j, j < g.nbC → weightTo g i (fun n => decide (n = j)) = weightTo g j (fun n => decide (n = i))) :
    SymWeights g := by
  intro i j
  by_cases hi : i < g.nbC
  · by_cases hj : j < g.nbC
    · exact hc i hi j hj
    · rw [weightTo_outside h hv hi (by omega), weightTo_out h (by omega)]
  · by_cases hj : j < g.nbC
    · rw [weightTo_outside h hv hj (by omega), weightTo_out h (by omega)]
    · rw [weightTo_out h (by omega), weightTo_out h (by omega)]

/-- two by two cells with different volumes and weights -/
def exSquare : Graph Int where
  nbC := 4
  rowPtr := [0, 2, 4, 6, 8]
  colInd := [1, 2, 0, 3, 0, 3, 1, 2]
  values := [2, 3, 2, 5, 3, 7, 5, 7]
  volumes := [1, 2, 3, 4]
  centers := [[0, 0], [2, 0], [0, 3], [2, 3]]
  nBnd := [2, 0, 1, 2]
  dim := 2
  compliant := NSet.empty

theorem exSquare_crs : ValidCRS exSquare.nbC exSquare.rowPtr exSquare.colInd := checkCRS_sound (by decide)

theorem exExact : ExactArith Int where
  toCommAdd := exCommAdd
  cancel a b := by show a + b - b = a; omega
  two a := by show (2 : Int) * a = a + a; omega
  reduce _ := rfl

theorem exSymm : SymmArith Int where
  sq a b := by
    show (a - b) * (a - b) = (b - a) * (b - a)
    rw [← Int.neg_mul_neg, Int.neg_sub]
  mul a b := Int.mul_comm a b

/-- the hypotheses are met for all kinds but one -/
theorem exSquare_input (kind : ARKind) (hk : kind ≠ .maxOverMinBary) : FeatInput exSquare kind where
  crs := exSquare_crs
  sizes := ⟨rfl, rfl, rfl, rfl, 2, by decide⟩
  sym := checkSym_sound exSquare_crs (by decide)
  add := exCommAdd
  weights _ := ⟨exExact, symWeights_of exSquare_crs rfl (by decide), checkNoLoop_sound exSquare_crs (by decide)⟩
  geom _ := ⟨exLawful, exSymm⟩
  bary _ := ⟨exLawful, exSymm⟩
  facets h := absurd h hk

/-- bounded square roots and a larger tolerance, for the remaining kind -/
@[reducible] def exNumTol : Num Int := { exNum with ctol := 1, sqrt := fun a => min a 1000000 }

theorem exSquare_input' : @FeatInput Int exNumTol exSquare .maxOverMinBary := by
  let _ := exNumTol
  refine ⟨exSquare_crs, ⟨rfl, rfl, rfl, rfl, 2, by decide⟩, checkSym_sound exSquare_crs (by decide), ?_, ?_, ?_, ?_, ?_⟩
  · exact ⟨Int.add_comm, Int.add_assoc, Int.zero_add⟩
  · intro h; cases h
  · intro h; cases h
  · intro _
    refine ⟨⟨fun a => ?_, fun a b c => ?_, fun a b => ?_⟩, @SymmArith.sq Int exNum exSymm, @SymmArith.mul Int exNum exSymm⟩
    · exact @LawfulLt.irrefl Int exNum exLawful a
    · exact @LawfulLt.trans Int exNum exLawful a b c
    · exact @LawfulLt.total Int exNum exLawful a b
  · intro _
    refine ⟨checkUniq_sound exSquare_crs (by decide), checkNoLoop_sound exSquare_crs (by decide), by decide, ?_⟩
    intro d
    show decide ((1000000 : Int) < min d 1000000) = false
    rw [decide_eq_false_iff_not]
    omega

example (kind : ARKind) (hk : kind ≠ .maxOverMinBary) (hu : kind ≠ .unknown) :=
  C31_features (exSquare_input kind hk) hu Hash.id (cells := [3, 0, 1]) (by decide) (by decide) (by decide)
example := @C31_features Int exNumTol exSquare .maxOverMinBary exSquare_input' (by decide) Hash.id [3, 0, 1] (by decide) (by decide) (by decide)
example (kind : ARKind) (hk : kind ≠ .maxOverMinBary) (hu : kind ≠ .unknown) :=
  C54_ratio (exSquare_input kind hk) hu Hash.id (cells := [3, 0]) (c := 1) (by decide) (by decide) (by decide)
example (kind : ARKind) (hk : kind ≠ .maxOverMinBary) (hu : kind ≠ .unknown) :=
  C54_order (exSquare_input kind hk) hu exLawful Hash.id Hash.rev (cells := [3, 0]) (c := 1) (cells' := [1, 3]) (c' := 0)
    (by decide) (by decide) (by decide) (by decide) (by decide)

/-- weights of the cells 3, 0, 1 -/
example : internalWeight exSquare (NSet.ofList [3, 0, 1]) = 7 ∧ externalWeight exSquare (NSet.ofList [3, 0, 1]) = 27 ∧
    measureOf exSquare (NSet.ofList [3, 0, 1]) = 7 ∧ internalPairs exSquare (NSet.ofList [3, 0, 1]) = 2 := by decide

theorem exRow_input : FeatInput (graphOf exRow) exRow.aspect where
  crs := exRow_crs
  sizes := ⟨rfl, rfl, rfl, rfl, 2, by decide⟩
  sym := exRow_valid.sym
  add := exCommAdd
  weights _ := ⟨exExact, symWeights_of exRow_crs rfl (by decide), exRow_loop⟩
  geom _ := ⟨exLawful, exSymm⟩
  bary _ := ⟨exLawful, exSymm⟩
  facets h := absurd h (by decide)

example := C55_shape (o := ⟨[], [], []⟩) exRow_valid exRow_params exLawful exRow_uniq exRow_loop exRow_input rfl (Or.inl rfl)
  (k := 0) (by rw [C41_counterexample.1]; decide)

end CoMMA
