import Verif.Lemmas.PartsFix
import Verif.Props.NumberingLines
/-! # Two calls that share a part of the mesh -/

set_option linter.unusedSectionVars false

namespace CoMMA

variable {W F : Type} [Num W] {K : Nat → Prop}

/-! ### The map -/

theorem IsoTrace.inside {E E' : IsoEnv W F} (h : PartRuns K E E') {agg0 agg : List Bool} {p0 p : Pool} {cs : List (Nat × NSet)}
    (ht : IsoTrace E (GrownGreedily E) agg0 p0 cs agg p) :
    ∀ c ∈ cs, c.1 ∈ c.2 ∧ (K c.1 → ∀ x ∈ c.2, K x) ∧ (¬ K c.1 → ∀ x ∈ c.2, ¬ K x) := by
  induction ht with
  | start => intro c hc; cases hc
  | @turn cs agg agg2 p p1 p2 seed order s h1 h2 h3 h4 h5 ih =>
    intro c hc
    rw [List.mem_append, List.mem_singleton] at hc
    rcases hc with hc | rfl
    · exact ih c hc
    · exact ⟨h3.holds_seed h.pos, fun hK => (h3.part h.env (agg' := agg) (fun _ _ => rfl) hK).2, fun hK => h.out h3 hK⟩

theorem IsoTrace.cellsIn_eq {E E' : IsoEnv W F} (h : PartRuns K E E') {agg0 agg : List Bool} {p0 p : Pool} {cs : List (Nat × NSet)}
    (ht : IsoTrace E (GrownGreedily E) agg0 p0 cs agg p) : cellsIn K (cs.map Prod.snd) = (inPart K cs).map Prod.snd := by
  classical
  have hin := ht.inside h
  unfold cellsIn inPart
  rw [List.filter_map]
  congr 1
  refine List.filter_congr (fun c hc => ?_)
  obtain ⟨h1, h2, h3⟩ := hin c hc
  rw [Bool.eq_iff_iff]
  simp only [Function.comp, decide_eq_true_iff]
  constructor
  · rintro ⟨x, hx, hK⟩
    by_contra hc
    exact h3 hc x hx hK
  · intro hK
    exact ⟨c.1, h1, hK⟩

theorem mem_linesIn {ls : List (List Nat)} {l : List Nat} : l ∈ linesIn K ls ↔ l ∈ ls ∧ ∃ x ∈ l, K x := by
  classical
  unfold linesIn
  rw [List.mem_filter, decide_eq_true_iff]

open Classical in
theorem flatten_linesIn {ls : List (List Nat)} (h : Inside K ls) : ls.flatten.filter (fun x => decide (K x)) = (linesIn K ls).flatten := by
  induction ls with
  | nil => rfl
  | cons l ls ih =>
    have ih' := ih (fun l hl => h l (by simp [hl]))
    rw [List.flatten_cons, List.filter_append, ih']
    by_cases hl : ∃ x ∈ l, K x
    · obtain ⟨x, hx, hK⟩ := hl
      rw [linesIn_cons_in ⟨x, hx, hK⟩, List.flatten_cons, List.filter_eq_self.2]
      intro y hy
      exact decide_eq_true (h l (by simp) x hx hK y hy)
    · have hl' : ∀ x ∈ l, ¬ K x := fun x hx hK => hl ⟨x, hx, hK⟩
      rw [linesIn_cons_out hl', List.filter_eq_nil_iff.2, List.nil_append]
      intro y hy hc
      exact hl' y hy (of_decide_eq_true hc)

open Classical in
theorem flatMap_rows {rp ci : List Nat} (hap : ∀ i j, ¬ K i → Adj rp ci i j → ¬ K j) (l : List Nat) :
    (l.flatMap (rowOf rp ci)).filter (fun x => decide (K x)) =
      (l.filter (fun x => decide (K x))).flatMap (fun i => (rowOf rp ci i).filter (fun x => decide (K x))) := by
  induction l with
  | nil => rfl
  | cons i l ih =>
    rw [List.flatMap_cons, List.filter_append, ih]
    by_cases hi : K i
    · rw [List.filter_cons (x := i), if_pos (decide_eq_true hi), List.flatMap_cons]
    · rw [List.filter_cons (x := i), if_neg (by simpa using hi), List.filter_eq_nil_iff.2, List.nil_append]
      intro y hy hc
      exact hap i y hi (adj_iff_rowOf.2 hy) (of_decide_eq_true hc)

theorem MapAfterLines.part {E E' : IsoEnv W F} (h : PartRuns K E E') (h1 : E.pool.onePoint = false) (h1' : E'.pool.onePoint = false)
    (hle : ∀ b ∈ E.pool.nBnd, b ≤ 3) (hle' : ∀ b ∈ E'.pool.nBnd, b ≤ 3) {n n' : Nat} (hK : ∀ i, K i → i < n ∧ i < n')
    {gss gss' : List (List (List Nat))} {f f' : List Nat} (hin : Inside K gss.flatten) (hin' : Inside K gss'.flatten)
    (hsame : linesIn K gss.flatten = linesIn K gss'.flatten) (hm : MapAfterLines E (GrownGreedily E) n gss f)
    (hm' : MapAfterLines E' (GrownGreedily E') n' gss' f') : SameMap K gss.flatten.length gss'.flatten.length f f' := by
  classical
  obtain ⟨agg0, p0, cs, agg, p, m1, m2, m3, m4, m5⟩ := hm
  obtain ⟨agg0', p0', cs', agg', p', m1', m2', m3', m4', m5'⟩ := hm'
  have hcells : gss.flatten.flatten.filter (fun x => decide (K x)) = gss'.flatten.flatten.filter (fun x => decide (K x)) := by
    rw [flatten_linesIn hin, flatten_linesIn hin', hsame]
  have hmem : ∀ i, K i → (i ∈ gss'.flatten.flatten ↔ i ∈ gss.flatten.flatten) := by
    intro i hi
    have := congrArg (fun l => i ∈ l) hcells
    simp only [List.mem_filter, decide_eq_true_iff, hi, and_true] at this
    rw [this]
  have hflags : SameFlags K agg0 agg0' := by
    intro i hi
    obtain ⟨a, b⟩ := hK i hi
    rw [m1, m1', List.getElem?_map, List.getElem?_map, List.getElem?_range a, List.getElem?_range b, Option.map_some, Option.map_some]
    simp only [hmem i hi]
  obtain ⟨i1, i2, i3⟩ := SameOnPart.begin h h1 h1' hle hle' hflags (w := (gss.flatten.flatten.flatMap (rowOf E.g.rowPtr E.g.colInd)).filter
      (fun x => decide (agg0[x]? = some false))) (w' := (gss'.flatten.flatten.flatMap (rowOf E'.g.rowPtr E'.g.colInd)).filter
      (fun x => decide (agg0'[x]? = some false))) (by
    rw [List.filter_comm, flatMap_rows h.apart, List.filter_comm, flatMap_rows h.apart', hcells]
    have : ∀ (l : List Nat), (∀ x ∈ l, K x) → l.flatMap (fun i => (rowOf E'.g.rowPtr E'.g.colInd i).filter (fun x => decide (K x))) =
        l.flatMap (fun i => (rowOf E.g.rowPtr E.g.colInd i).filter (fun x => decide (K x))) := by
      intro l hl
      induction l with
      | nil => rfl
      | cons i l ih =>
        rw [List.flatMap_cons, List.flatMap_cons, ih (fun x hx => hl x (by simp [hx])), h.env.graph.rows i (hl i (by simp))]
    rw [this _ (fun x hx => by simpa using (List.mem_filter.1 hx).2)]
    refine List.filter_congr (fun x hx => ?_)
    obtain ⟨i, _, hi⟩ := List.mem_flatMap.1 hx
    have hxK : K x := by simpa using (List.mem_filter.1 hi).2
    rw [hflags x hxK]) m2 m2'
  have hruns := h.complete i1 i2 i3 m3 m3' (by rw [m4]; intro b hb; exact List.eq_of_mem_replicate hb)
    (by rw [m4']; intro b hb; exact List.eq_of_mem_replicate hb)
  have hmap : ∀ ls : List (List Nat), cellsIn K (ls.map NSet.ofList) = (linesIn K ls).map NSet.ofList := by
    intro ls
    unfold cellsIn linesIn
    rw [List.filter_map]
    congr 1
    refine List.filter_congr (fun l _ => ?_)
    simp only [Function.comp, NSet.mem_ofList]
  have := SameMap.of_numbers hK m5 m5' (by rw [hmap, hmap, hsame]) (by rw [m3.cellsIn_eq h, m3'.cellsIn_eq h.symm, hruns])
    (by
      intro c hc x hx hxK y hy
      rw [List.mem_append] at hc
      rcases hc with hc | hc
      · obtain ⟨l, hl, rfl⟩ := List.mem_map.1 hc
        rw [NSet.mem_ofList] at hx hy
        exact hin l hl x hx hxK y hy
      · obtain ⟨d, hd, rfl⟩ := List.mem_map.1 hc
        obtain ⟨_, g2, g3⟩ := m3.inside h d hd
        by_cases hd1 : K d.1
        · exact g2 hd1 y hy
        · exact absurd hxK (g3 hd1 x hx))
    (by
      intro c hc x hx hxK y hy
      rw [List.mem_append] at hc
      rcases hc with hc | hc
      · obtain ⟨l, hl, rfl⟩ := List.mem_map.1 hc
        rw [NSet.mem_ofList] at hx hy
        exact hin' l hl x hx hxK y hy
      · obtain ⟨d, hd, rfl⟩ := List.mem_map.1 hc
        obtain ⟨_, g2, g3⟩ := m3'.inside h.symm d hd
        by_cases hd1 : K d.1
        · exact g2 hd1 y hy
        · exact absurd hxK (g3 hd1 x hx))
  rw [List.length_map, List.length_map] at this
  exact this

/-! ### Aspect ratios -/

/-- what the aspect ratio reads is the same on `K` -/
structure SameReads (K : Nat → Prop) (g g' : Graph W) : Prop where
  neighs : ∀ i, K i → g'.neighs i = g.neighs i
  weights : ∀ i, K i → g'.weights i = g.weights i
  nb : ∀ i, K i → g'.nbNeighs i = g.nbNeighs i
  bnd : ∀ i, K i → rd g'.nBnd i = rd g.nBnd i
  volumes : ∀ i, K i → rd g'.volumes i = rd g.volumes i
  centers : ∀ i, K i → rd g'.centers i = rd g.centers i
  dim : g'.dim = g.dim

theorem foldlM_same {α β : Type} {l : List α} {f f' : β → α → M β} (h : ∀ b, ∀ x ∈ l, f b x = f' b x) (b : β) :
    l.foldlM f b = l.foldlM f' b := by
  induction l generalizing b with
  | nil => rfl
  | cons x l ih =>
    rw [List.foldlM_cons, List.foldlM_cons, h b x (by simp)]
    congr 1
    funext c
    exact ih (fun b x hx => h b x (by simp [hx])) c

section
variable {g g' : Graph W} (h : SameReads K g g')
include h

theorem SameReads.totalFaces {i : Nat} (hi : K i) : g'.totalFaces i = g.totalFaces i := by
  unfold Graph.totalFaces; rw [h.bnd i hi, h.nb i hi]

theorem SameReads.totalWeight {i : Nat} (hi : K i) : g'.totalWeight i = g.totalWeight i := by
  unfold Graph.totalWeight Graph.boundaryWeight; rw [h.bnd i hi, h.nb i hi, h.weights i hi]

theorem SameReads.init {i : Nat} (hi : K i) : Feats.init g' i = Feats.init g i := by
  unfold Feats.init; rw [h.totalWeight hi, h.totalFaces hi, h.volumes i hi, h.centers i hi]

theorem SameReads.basic (cw uf : Bool) {i : Nat} (hi : K i) (f : Feats W) (cc : NSet) : updateBasic cw uf g' i f cc = updateBasic cw uf g i f cc := by
  unfold updateBasic sharedFaces withWeights updateWeights updateFacets
  rw [h.totalWeight hi, h.totalFaces hi, h.volumes i hi, h.neighs i hi, h.weights i hi]

theorem SameReads.compute (hh : Hash) (kind : ARKind) {i : Nat} (hi : K i) (f : Feats W) {cc : NSet} (hcc : ∀ x ∈ cc, K x) :
    (arOf g' hh kind).compute i f cc = (arOf g hh kind).compute i f cc := by
  have hord : ∀ x ∈ hh.ord 4 cc.elems, K x := fun x hx => hcc x (NSet.mem_elems.1 ((hh.perm 4 cc.elems).mem_iff.1 hx))
  have e1 : ∀ b, maxBary g' hh b i cc = maxBary g hh b i cc := by
    intro b
    unfold maxBary
    rw [h.centers i hi]
    congr 1; funext c; congr 1; funext d
    exact foldlM_same (fun m x hx => by rw [h.centers x (hord x hx)]) d
  have e2 : ∀ b m, minMaxBary g' hh b m i cc = minMaxBary g hh b m i cc := by
    intro b m
    unfold minMaxBary minMaxFirst
    rw [h.centers i hi]
    congr 1; funext s
    exact foldlM_same (fun m x hx => by rw [h.centers x (hord x hx)]) s
  have e3 : updateGeom g' hh i f cc = updateGeom g hh i f cc := by
    unfold updateGeom
    rw [h.centers i hi]
    congr 1; funext c
    exact foldlM_same (fun m x hx => by rw [h.centers x (hord x hx)]) _
  have e4 : updateBary g' i f cc = updateBary g i f cc := by
    unfold updateBary
    rw [h.centers i hi, h.volumes i hi]
  show (if kind.bary then arBary g' hh kind i f cc else if kind.geom then arGeom g' hh kind i f cc else arPlain g' kind i f cc) =
    (if kind.bary then arBary g hh kind i f cc else if kind.geom then arGeom g hh kind i f cc else arPlain g kind i f cc)
  have b1 : arBary g' hh kind i f cc = arBary g hh kind i f cc := by
    unfold arBary
    simp only [h.basic _ _ hi, e1, e2, e4, h.dim]
  have b2 : arGeom g' hh kind i f cc = arGeom g hh kind i f cc := by
    unfold arGeom
    simp only [h.basic _ _ hi, e3, h.dim]
  have b3 : arPlain g' kind i f cc = arPlain g kind i f cc := by
    unfold arPlain
    simp only [h.basic _ _ hi, h.dim]
  rw [b1, b2, b3]

end

/-! ### From the calls -/

section call
variable {P : Platform} {a a' : Args W} {n n' : Nat} {E E' : IsoEnv W (Feats W)} (h : SharedPart K a a' n n') (hm : ValidMesh a n)
  (hm' : ValidMesh a' n')
include h hm hm'

theorem SharedPart.rows {i : Nat} (hi : K i) : rowOf a'.rowPtr a'.colInd i = rowOf a.rowPtr a.colInd i := by
  have h1 := (faces_fst (g := graphOf a) hm.values i).1
  have h2 := (faces_fst (g := graphOf a') hm'.values i).1
  rw [h.faces i hi, h1] at h2
  exact h2.symm

theorem SharedPart.entries {i : Nat} (hi : K i) : entriesOfRow a'.rowPtr a'.values i = entriesOfRow a.rowPtr a.values i := by
  have h1 := (faces_fst (g := graphOf a) hm.values i).2
  have h2 := (faces_fst (g := graphOf a') hm'.values i).2
  rw [h.faces i hi, h1] at h2
  exact h2.symm

theorem SharedPart.graphs : PartGraphs K a.rowPtr a.colInd a'.rowPtr a'.colInd := by
  have hg : PartGraph K a.rowPtr a.colInd a'.rowPtr a'.colInd := ⟨fun i hi => h.rows hm hm' hi, h.closed⟩
  refine ⟨hg, fun i j hi hij hj => ?_, fun i j hi hij hj => ?_⟩
  · exact hi (h.closed j i hj (hm.sym _ _ hij))
  · exact hi (hg.symm.closed j i hj (hm'.sym _ _ hij))

variable (hE : CallEnv P a E) (hE' : CallEnv P a' E')
include hE hE'

theorem SharedPart.dims : E'.g.dim = E.g.dim := by
  have h1 := hE.dim; have h2 := hE'.dim
  rw [show a'.dim = a.dim from (congrArg Args.dim h.others :)] at h2
  omega

theorem SharedPart.bnds {i : Nat} (hi : K i) : E'.g.nBnd[i]? = E.g.nBnd[i]? := by
  rw [hE.nBnd, hE'.nBnd, List.getElem?_map, List.getElem?_map, h.bnd i hi, h.dims hm hm' hE hE']

theorem SharedPart.partCells : PartCells K E.g E'.g where
  graphs := by rw [hE.rowPtr, hE.colInd, hE'.rowPtr, hE'.colInd]; exact h.graphs hm hm'
  faces i hi := by
    have := h.faces i hi
    unfold facesOf at this ⊢
    rw [hE.rowPtr, hE.colInd, hE.values, hE'.rowPtr, hE'.colInd, hE'.values]
    exact this
  centers i hi := by rw [hE.centers, hE'.centers]; exact h.centers i hi
  bnd i hi := h.bnds hm hm' hE hE' hi
  dim := h.dims hm hm' hE hE'

theorem SharedPart.reads : SameReads K E.g E'.g := by
  have nb : ∀ {a : Args W} {n : Nat} {E : IsoEnv W (Feats W)}, ValidMesh a n → CallEnv P a E → E.g.nbC = n := by
    intro a n E hm hE
    rw [hE.cells, hm.crs.rows]; omega
  have hc : ValidCRS E.g.nbC E.g.rowPtr E.g.colInd := by rw [nb hm hE, hE.rowPtr, hE.colInd]; exact hm.crs
  have hc' : ValidCRS E'.g.nbC E'.g.rowPtr E'.g.colInd := by rw [nb hm' hE', hE'.rowPtr, hE'.colInd]; exact hm'.crs
  have hv : E.g.values.length = E.g.colInd.length := by rw [hE.values, hE.colInd]; exact hm.values
  have hv' : E'.g.values.length = E'.g.colInd.length := by rw [hE'.values, hE'.colInd]; exact hm'.values
  have hlt : ∀ {i}, K i → i < E.g.nbC ∧ i < E'.g.nbC := by
    intro i hi; rw [nb hm hE, nb hm' hE']; exact h.cells i hi
  have hrow : ∀ {i}, K i → rowL E'.g.rowPtr E'.g.colInd i = rowL E.g.rowPtr E.g.colInd i := by
    intro i hi
    rw [← rowOf_eq hc (hlt hi).1, ← rowOf_eq hc' (hlt hi).2, hE.rowPtr, hE.colInd, hE'.rowPtr, hE'.colInd]
    exact h.rows hm hm' hi
  have hent : ∀ {i}, K i → rowL E'.g.rowPtr E'.g.values i = rowL E.g.rowPtr E.g.values i := by
    intro i hi
    rw [← entries_eq hc hv (hlt hi).1, ← entries_eq hc' hv' (hlt hi).2, hE.rowPtr, hE.values, hE'.rowPtr, hE'.values]
    exact h.entries hm hm' hi
  have hrd : ∀ {α : Type} {l l' : List α} {i : Nat}, l'[i]? = l[i]? → rd l' i = rd l i := by
    intro α l l' i e
    unfold rd
    rw [e]
  refine ⟨fun i hi => ?_, fun i hi => ?_, fun i hi => ?_, fun i hi => hrd (h.bnds hm hm' hE hE' hi), fun i hi => hrd ?_, fun i hi => hrd ?_,
    h.dims hm hm' hE hE'⟩
  · rw [neighs_eq hc (hlt hi).1, neighs_eq hc' (hlt hi).2, hrow hi]
  · rw [(weights_eq hc hv (hlt hi).1).1, (weights_eq hc' hv' (hlt hi).2).1, hent hi]
  · obtain ⟨m, m1, m2⟩ := nbNeighs_ok hc (hlt hi).1
    obtain ⟨m', m1', m2'⟩ := nbNeighs_ok hc' (hlt hi).2
    rw [m1, m1', m2, m2', hrow hi]
  · rw [hE.volumes, hE'.volumes]; exact h.volumes i hi
  · rw [hE.centers, hE'.centers]; exact h.centers i hi

theorem SharedPart.env : PartEnv K E E' where
  graph := (h.partCells hm hm' hE hE').graphs.graph
  bnd i hi := h.bnds hm hm' hE hE' hi
  poolBnd i hi := by rw [hE.poolBnd, hE'.poolBnd]; exact h.bnds hm hm' hE hE' hi
  prio i hi := by rw [hE.prio, hE'.prio]; exact h.prio i hi
  dim := h.dims hm hm' hE hE'
  nbh := by rw [hE.nbh, hE'.nbh]; exact (congrArg Args.nbh h.others :)
  fcIter := by
    have h1 := hE.fcIter; have h2 := hE'.fcIter
    rw [show a'.fcIter = a.fcIter from (congrArg Args.fcIter h.others :)] at h2; omega
  minCard := by
    have h1 := hE.minCard; have h2 := hE'.minCard
    rw [show a'.minCard = a.minCard from (congrArg Args.minCard h.others :)] at h2; omega
  goalCard := by
    have h1 := hE.goalCard; have h2 := hE'.goalCard
    rw [show a'.goalCard = a.goalCard from (congrArg Args.goalCard h.others :)] at h2; omega
  maxCard := by
    have h1 := hE.maxCard; have h2 := hE'.maxCard
    rw [show a'.maxCard = a.maxCard from (congrArg Args.maxCard h.others :)] at h2; omega
  init i hi := by rw [hE.ar, hE'.ar]; exact (h.reads hm hm' hE hE').init hi
  compute c f cc hc hcc := by
    rw [hE.ar, hE'.ar, show a'.aspect = a.aspect from (congrArg Args.aspect h.others :)]
    exact (h.reads hm hm' hE hE').compute _ _ hc f hcc

end call

end CoMMA
