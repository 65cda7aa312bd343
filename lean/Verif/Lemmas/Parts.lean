import Verif.Lemmas.Numbering
import Verif.Lemmas.ExampleTools
/-! # Two agglomerations that share a part of the mesh: growth of a coarse cell -/

set_option linter.unusedSectionVars false

namespace CoMMA

variable {W F : Type} [Num W]

/-- the two graphs are the same on the cells `K`, which have no face in common with others -/
structure PartGraph (K : Nat → Prop) (rp ci rp' ci' : List Nat) : Prop where
  rows : ∀ i, K i → rowOf rp' ci' i = rowOf rp ci i
  closed : ∀ i j, K i → Adj rp ci i j → K j

/-- two isotropic agglomerations with boundary priority that share the part `K` of the mesh -/
structure PartEnv (K : Nat → Prop) (E E' : IsoEnv W F) : Prop where
  graph : PartGraph K E.g.rowPtr E.g.colInd E'.g.rowPtr E'.g.colInd
  bnd : ∀ i : Nat, K i → E'.g.nBnd[i]? = E.g.nBnd[i]?
  poolBnd : ∀ i : Nat, K i → E'.pool.nBnd[i]? = E.pool.nBnd[i]?
  prio : ∀ i : Nat, K i → E'.pool.prio[i]? = E.pool.prio[i]?
  dim : E'.g.dim = E.g.dim
  nbh : E'.nbh = E.nbh
  fcIter : E'.fcIter = E.fcIter
  minCard : E'.minCard = E.minCard
  goalCard : E'.goalCard = E.goalCard
  maxCard : E'.maxCard = E.maxCard
  init : ∀ i, K i → E'.ar.init i = E.ar.init i
  compute : ∀ c f cc, K c → (∀ x ∈ cc, K x) → E'.ar.compute c f cc = E.ar.compute c f cc

/-- flags that are the same on `K` -/
def SameFlags (K : Nat → Prop) (agg agg' : List Bool) : Prop := ∀ i : Nat, K i → agg'[i]? = agg[i]?

section
variable {K : Nat → Prop} {E E' : IsoEnv W F}

theorem PartGraph.adj {rp ci rp' ci' : List Nat} (h : PartGraph K rp ci rp' ci') {x y : Nat} (hx : K x) :
    Adj rp' ci' x y ↔ Adj rp ci x y := by
  rw [adj_iff_rowOf, adj_iff_rowOf, h.rows x hx]

theorem PartGraph.symm {rp ci rp' ci' : List Nat} (h : PartGraph K rp ci rp' ci') : PartGraph K rp' ci' rp ci :=
  ⟨fun i hi => (h.rows i hi).symm, fun i j hi hj => h.closed i j hi ((h.adj hi).1 hj)⟩

theorem PartEnv.symm (h : PartEnv K E E') : PartEnv K E' E :=
  ⟨h.graph.symm, fun i hi => (h.bnd i hi).symm, fun i hi => (h.poolBnd i hi).symm, fun i hi => (h.prio i hi).symm,
    h.dim.symm, h.nbh.symm, h.fcIter.symm, h.minCard.symm, h.goalCard.symm, h.maxCard.symm,
    fun i hi => (h.init i hi).symm, fun c f cc hc hcc => (h.compute c f cc hc hcc).symm⟩

theorem SameFlags.symm {agg agg' : List Bool} (h : SameFlags K agg agg') : SameFlags K agg' agg := fun i hi => (h i hi).symm

theorem walk_part {R R' : Nat → Nat → Prop} (hR : ∀ x y, K x → R x y → K y ∧ R' x y) {k x y : Nat} (h : Walk R k x y) :
    K x → K y ∧ Walk R' k x y := by
  induction h with
  | nil x => exact fun hx => ⟨hx, .nil x⟩
  | step _ h2 ih =>
    intro hx
    obtain ⟨h3, h4⟩ := ih hx
    obtain ⟨h5, h6⟩ := hR _ _ h3 h2
    exact ⟨h5, .step h4 h6⟩

/-- relations that are the same on `K` and do not leave it -/
structure PartRel (K : Nat → Prop) (R R' : Nat → Nat → Prop) : Prop where
  forth : ∀ x y, K x → R x y → K y ∧ R' x y
  back : ∀ x y, K x → R' x y → K y ∧ R x y

theorem PartRel.symm {R R' : Nat → Nat → Prop} (h : PartRel K R R') : PartRel K R' R := ⟨h.back, h.forth⟩

theorem PartRel.dist {R R' : Nat → Nat → Prop} (h : PartRel K R R') {s : Nat} (hs : K s) {x k : Nat}
    (hd : IsDistance R (· = s) x k) : K x ∧ IsDistance R' (· = s) x k := by
  obtain ⟨⟨w, rfl, hw⟩, hmin⟩ := hd
  obtain ⟨h1, h2⟩ := walk_part h.forth hw hs
  refine ⟨h1, ⟨w, rfl, h2⟩, ?_⟩
  rintro k' _ rfl hw'
  exact hmin k' _ rfl (walk_part h.back hw' hs).2

theorem PartRel.dist_iff {R R' : Nat → Nat → Prop} (h : PartRel K R R') {s : Nat} (hs : K s) {x k : Nat} :
    IsDistance R' (· = s) x k ↔ IsDistance R (· = s) x k :=
  ⟨fun hd => (h.symm.dist hs hd).2, fun hd => (h.dist hs hd).2⟩

theorem PartRel.reach {R R' : Nat → Nat → Prop} (h : PartRel K R R') {s : Nat} (hs : K s) {x : Nat}
    (hd : ReachableFrom R (· = s) x) : K x ∧ ReachableFrom R' (· = s) x := by
  obtain ⟨k, w, rfl, hw⟩ := hd
  obtain ⟨h1, h2⟩ := walk_part h.forth hw hs
  exact ⟨h1, k, w, rfl, h2⟩

theorem PartRel.few {R R' : Nat → Nat → Prop} (h : PartRel K R R') {s : Nat} (hs : K s) {o m : Nat}
    (hf : FewBefore R (· = s) o m) : FewBefore R' (· = s) o m := by
  obtain ⟨t, h1, h2, h3⟩ := hf
  refine ⟨t, h1, fun x => ?_, h3⟩
  rw [h2 x]
  simp only [h.dist_iff hs]

theorem PartGraph.free {rp ci rp' ci' : List Nat} (h : PartGraph K rp ci rp' ci') {agg agg' : List Bool}
    (ha : SameFlags K agg agg') : PartRel K (FreeAdj rp ci agg) (FreeAdj rp' ci' agg') := by
  refine ⟨fun x y hx hr => ?_, fun x y hx hr => ?_⟩
  · have hy := h.closed x y hx hr.1
    exact ⟨hy, (h.adj hx).2 hr.1, by rw [ha y hy]; exact hr.2⟩
  · have h1 := (h.adj hx).1 hr.1
    have hy := h.closed x y hx h1
    exact ⟨hy, h1, by rw [← ha y hy]; exact hr.2⟩

theorem PartGraph.inFront {rp ci rp' ci' : List Nat} (h : PartGraph K rp ci rp' ci') {al : NSet} {xs : List Nat}
    (hx : ∀ x ∈ xs, K x) {x : Nat} : InFront rp' ci' al xs x ↔ InFront rp ci al xs x := by
  unfold InFront
  refine and_congr Iff.rfl (and_congr Iff.rfl ⟨?_, ?_⟩)
  · rintro ⟨y, hy, hadj⟩; exact ⟨y, hy, (h.adj (hx y hy)).1 hadj⟩
  · rintro ⟨y, hy, hadj⟩; exact ⟨y, hy, (h.adj (hx y hy)).2 hadj⟩

theorem PartGraph.firstNext {rp ci rp' ci' : List Nat} (h : PartGraph K rp ci rp' ci') {xs : List Nat}
    (hx : ∀ x ∈ xs, K x) {x i : Nat} (hf : FirstNextTo rp ci xs x i) : FirstNextTo rp' ci' xs x i := by
  obtain ⟨⟨y, h1, h2⟩, h3⟩ := hf
  refine ⟨⟨y, h1, (h.adj (hx y (List.mem_of_getElem? h1))).2 h2⟩, fun j y hj hy hadj => h3 j y hj hy ?_⟩
  exact (h.adj (hx y (List.mem_of_getElem? hy))).1 hadj

theorem before_part {prio prio' : List W} (h : ∀ i : Nat, K i → prio'[i]? = prio[i]?) {x y : Nat} (hx : K x) (hy : K y) :
    Before prio' x y ↔ Before prio x y := by
  unfold Before
  rw [h x hx, h y hy]

theorem ordered_part {prio prio' : List W} (h : ∀ i : Nat, K i → prio'[i]? = prio[i]?) {l : List Nat} (hl : ∀ x ∈ l, K x)
    (ho : PriorityOrdered prio l) : PriorityOrdered prio' l :=
  List.Pairwise.imp_of_mem (fun hx hy hb => (before_part h (hl _ hx) (hl _ hy)).2 hb) ho

theorem PartEnv.cands (h : PartEnv K E E') {al : NSet} (hal : ∀ x ∈ al, K x) {xs l : List Nat} (hx : ∀ x ∈ xs, K x)
    (hc : Candidates E.g E.nbh E.pool.prio al xs l) : Candidates E'.g E'.nbh E'.pool.prio al xs l := by
  have hl : ∀ x ∈ l, K x := fun x hxl => hal x (hc.front hxl).1
  rw [h.nbh]
  cases hk : E.nbh with
  | extended =>
    rw [hk] at hc
    obtain ⟨h1, h2⟩ := hc
    refine ⟨fun x => (h1 x).trans (h.graph.inFront hx).symm, List.Pairwise.imp_of_mem ?_ h2⟩
    rintro x y hxl hyl ⟨i, j, g1, g2, g3⟩
    refine ⟨i, j, h.graph.firstNext hx g1, h.graph.firstNext hx g2, g3.imp id (fun g => ⟨g.1, ?_⟩)⟩
    exact (before_part h.prio (hl x hxl) (hl y hyl)).2 g.2
  | pureFront =>
    rw [hk] at hc
    obtain ⟨h1, h2, h3⟩ := hc
    refine ⟨ordered_part h.prio hl h1, fun hd x => ?_, fun hd => ?_⟩
    · rw [h.dim] at hd
      exact (h2 hd x).trans (h.graph.inFront hx).symm
    · rw [h.dim] at hd
      rcases h3 hd with ⟨g1, g2⟩ | ⟨g1, i, y, g2, g3, g4⟩
      · exact Or.inl ⟨g1, fun x hf => g2 x ((h.graph.inFront hx).1 hf)⟩
      · have key : ∀ z, z ∈ xs → ∀ x, (InFront E'.g.rowPtr E'.g.colInd al xs x ∧ Adj E'.g.rowPtr E'.g.colInd z x) ↔
            (InFront E.g.rowPtr E.g.colInd al xs x ∧ Adj E.g.rowPtr E.g.colInd z x) :=
          fun z hz x => and_congr (h.graph.inFront hx) (h.graph.adj (hx z hz))
        refine Or.inr ⟨g1, i, y, g2, fun x => (g3 x).trans (key y (List.mem_of_getElem? g2) x).symm, ?_⟩
        rintro j z hz ⟨x, hxz⟩
        exact g4 j z hz ⟨x, (key z (List.mem_of_getElem? hz) x).1 hxz⟩

theorem FirstBest.imp_mem {Q Q' : Nat → Merit W → F → Prop} {l : List Nat} {x : Nat} {m : Merit W} {f : F}
    (hQ : ∀ y ∈ l, ∀ m f, Q y m f → Q' y m f) (h : FirstBest Q l x m f) : FirstBest Q' l x m f := by
  obtain ⟨μ, h1, h2⟩ := h
  exact ⟨μ, fun y hy => hQ y hy _ _ (h1 y hy), h2⟩

theorem LookAhead.part (h : PartEnv K E E') {al : NSet} (hal : ∀ x ∈ al, K x) {d : NMap Nat} (k : Nat) :
    ∀ {xs : List Nat} {f : F} {x : Nat} {m : Merit W} {f1 : F}, (∀ x ∈ xs, K x) → K x →
      LookAhead E al d k xs f x m f1 → LookAhead E' al d k xs f x m f1 := by
  have merit : ∀ {xs : List Nat} {f : F} {x : Nat} {m : Merit W} {f1 : F}, (∀ x ∈ xs, K x) → K x →
      HasMerit E d f (NSet.ofList xs) x m f1 → HasMerit E' d f (NSet.ofList xs) x m f1 := by
    intro xs f x m f1 hxs hx hm
    refine ⟨by rw [h.graph.rows x hx]; exact hm.faces, hm.order, ?_⟩
    rw [h.compute x f _ hx (fun y hy => hxs y (NSet.mem_ofList.1 hy))]
    exact hm.ar
  induction k with
  | zero => exact merit
  | succ k ih =>
    intro xs f x m f1 hxs hx hl
    have hxs' : ∀ y ∈ xs ++ [x], K y := by
      intro y hy
      rcases List.mem_append.1 hy with hy | hy
      · exact hxs y hy
      · rw [List.mem_singleton.1 hy]; exact hx
    obtain ⟨m0, l, h1, h2, h3⟩ := hl
    refine ⟨m0, l, merit hxs hx h1, h.cands hal hxs' h2, ?_⟩
    rcases h3 with h3 | ⟨c2, m2, f2, h3, rfl⟩
    · exact Or.inl h3
    · refine Or.inr ⟨c2, m2, f2, h3.imp_mem (fun y hy m f hq => ih hxs' (hal y (h2.front hy).1) hq), ?_⟩
      rw [h.graph.rows c2 (hal c2 (h2.front h3.mem.1).1)]

theorem GrownGreedily.part (h : PartEnv K E E') {d : NMap Nat} (hal : ∀ x ∈ d.keySet, K x) {hi : Nat} {xs : List Nat} {s : Nat}
    (hs : K s) (hh : xs.head? = some s) (hg : GrownGreedily E d hi xs) : GrownGreedily E' d hi xs ∧ ∀ x ∈ xs, K x := by
  obtain ⟨f, hf⟩ := hg
  suffices GreedySeq E' d hi xs f ∧ ∀ x ∈ xs, K x from ⟨⟨f, this.1⟩, this.2⟩
  induction hf with
  | seed h1 =>
    simp only [List.head?_cons, Option.some.injEq] at hh
    subst hh
    exact ⟨.seed (by rw [h.init _ hs]; exact h1), fun x hx => by rw [List.mem_singleton.1 hx]; exact hs⟩
  | @next xs l f f1 c m hg hc hb ih =>
    obtain ⟨i1, i2⟩ := ih (head_of_append hg.ne_nil hh)
    refine ⟨.next (m := m) i1 (h.cands hal i2 hc) ?_, ?_⟩
    · rw [h.fcIter]
      exact hb.imp_mem (fun y hy m f hq => LookAhead.part h hal _ i2 (hal y (hc.front hy).1) hq)
    · intro x hx
      rcases List.mem_append.1 hx with hx | hx
      · exact i2 x hx
      · rw [List.mem_singleton.1 hx]; exact hal c (hc.front hb.mem.1).1

theorem PartGraph.compact {rp ci rp' ci' : List Nat} (h : PartGraph K rp ci rp' ci') {s : NSet} (hs : ∀ x ∈ s, K x) {k : Nat}
    (hc : IsCompactness rp ci s k) : IsCompactness rp' ci' s k := by
  refine ⟨hc.1, fun h1 => ?_⟩
  obtain ⟨⟨x, h2, h3⟩, h4⟩ := hc.2 h1
  refine ⟨⟨x, h2, by rw [h.rows x (hs x h2)]; exact h3⟩, fun y hy => ?_⟩
  rw [h.rows y (hs y hy)]
  exact h4 y hy

theorem PartEnv.external (h : PartEnv K E E') {s : NSet} (hs : ∀ x ∈ s, K x) : externalFaces E'.g s = externalFaces E.g s := by
  unfold externalFaces
  congr 1
  refine List.map_congr_left (fun x hx => ?_)
  have hx' := hs x (NSet.mem_elems.1 hx)
  rw [h.graph.rows x hx', h.bnd x hx']

theorem GrownCell.part (h : PartEnv K E E') {agg agg' : List Bool} (ha : SameFlags K agg agg') {seed order : Nat} {s : NSet}
    (hs : K seed) (hc : GrownCell E (GrownGreedily E) agg seed order s) :
    GrownCell E' (GrownGreedily E') agg' seed order s ∧ ∀ x ∈ s, K x := by
  have hR := h.graph.free ha
  obtain ⟨d, h1, h2, h3, h4, h5⟩ := hc
  have hd : ∀ x ∈ d.keySet, K x := by
    intro x hx
    obtain ⟨l, hl⟩ := NMap.mem_keys.1 (NMap.mem_keySet.1 hx)
    exact (hR.dist hs ((h1 x l).1 hl).1).1
  refine ⟨⟨d, fun x k => ?_, ?_, ?_, ?_, fun hg => ?_⟩, ?_⟩
  · rw [h1, hR.dist_iff hs]
  · rw [h.dim, h.maxCard]
    exact h2.imp (fun g x hx => g x (hR.symm.reach hs hx).2) id
  · rw [h.dim, h.maxCard]
    exact h3.imp id (hR.few hs)
  · rw [h.goalCard]; exact h4
  · rw [h.goalCard] at hg
    obtain ⟨xs, κ, m, g1, g2, g3, g4, g5, g6, g7⟩ := h5 hg
    rw [h.maxCard, h.minCard, h.goalCard]
    obtain ⟨i1, i2⟩ := GrownGreedily.part h hd hs g2 g1
    have hK : ∀ j, ∀ x ∈ NSet.ofList (xs.take j), K x := fun j x hx => i2 x (List.mem_of_mem_take (NSet.mem_ofList.1 hx))
    refine ⟨xs, κ, m, i1, g2, g3, g4, fun j hj hj' => h.graph.compact (hK j) (g5 j hj hj'), ?_, g7⟩
    have : (fun j => (externalFaces E'.g (NSet.ofList (xs.take j)) : Int) - j) =
        fun j => (externalFaces E.g (NSet.ofList (xs.take j)) : Int) - j := by
      funext j
      rw [h.external (hK j)]
    rw [this]
    exact g6
  · intro x hx
    by_cases hg : d.size + 1 < E.goalCard
    · rcases (h4 hg x).1 hx with rfl | hx
      · exact hs
      · exact hd x hx
    · obtain ⟨xs, κ, m, g1, g2, g3, g4, g5, g6, g7⟩ := h5 (by omega)
      rw [g7, NSet.mem_ofList] at hx
      exact (GrownGreedily.part h hd hs g2 g1).2 x (List.mem_of_mem_take hx)

end

end CoMMA
