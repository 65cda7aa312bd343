import Verif.Spec.Numbering
import Verif.Lemmas.Features
import Verif.Lemmas.WholeCall
/-! # The description of the result under another numbering of the cells -/

set_option linter.unusedSectionVars false

namespace CoMMA

variable {W F : Type} [Num W] {σ τ : Nat → Nat}

/-! ### Sets, maps, lists -/

theorem Renumbering.symm (h : Renumbering σ τ) : Renumbering τ σ := ⟨h.forth, h.back⟩

theorem Renumbering.inj (h : Renumbering σ τ) : Function.Injective σ := fun x y e => by rw [← h.back x, ← h.back y, e]

theorem Renumbering.all (h : Renumbering σ τ) {p : Nat → Prop} (hp : ∀ x, p (σ x)) (x : Nat) : p x := by
  rw [← h.forth x]; exact hp _

theorem Renumbering.ex (h : Renumbering σ τ) {p : Nat → Prop} : (∃ x, p x) ↔ ∃ x, p (σ x) :=
  ⟨fun ⟨x, hx⟩ => ⟨τ x, by rw [h.forth]; exact hx⟩, fun ⟨x, hx⟩ => ⟨_, hx⟩⟩

theorem Renumbering.mem (h : Renumbering σ τ) {x : Nat} {l : List Nat} : σ x ∈ l.map σ ↔ x ∈ l :=
  List.mem_map_of_injective h.inj

theorem Renumbering.nodup (h : Renumbering σ τ) {l : List Nat} (hl : l.Nodup) : (l.map σ).Nodup := hl.map h.inj

/-- the set `s'` is `s` after renumbering -/
def ImgSet (σ : Nat → Nat) (s s' : NSet) : Prop := ∀ x, σ x ∈ s' ↔ x ∈ s

theorem ImgSet.ofList (h : Renumbering σ τ) (l : List Nat) : ImgSet σ (NSet.ofList l) (NSet.ofList (l.map σ)) := fun x => by
  rw [NSet.mem_ofList, NSet.mem_ofList, h.mem]

theorem ImgSet.some (h : Renumbering σ τ) (s : NSet) : ∃ s', ImgSet σ s s' :=
  ⟨NSet.ofList (s.elems.map σ), fun x => by rw [NSet.mem_ofList, h.mem, NSet.mem_elems]⟩

theorem ImgSet.symm (h : Renumbering σ τ) {s s' : NSet} (hs : ImgSet σ s s') : ImgSet τ s' s := fun x => by
  rw [← hs (τ x), h.forth]

theorem ImgSet.insert (h : Renumbering σ τ) {s s' : NSet} (hs : ImgSet σ s s') (x : Nat) :
    ImgSet σ (s.insert x) (s'.insert (σ x)) := fun y => by
  rw [NSet.mem_insert, NSet.mem_insert, hs y, h.inj.eq_iff]

theorem ImgSet.perm (h : Renumbering σ τ) {s s' : NSet} (hs : ImgSet σ s s') : s'.elems.Perm (s.elems.map σ) :=
  NSet.elems_perm (h.nodup s.nodup) (h.all (fun x => by rw [hs x, h.mem, NSet.mem_elems]))

theorem ImgSet.card (h : Renumbering σ τ) {s s' : NSet} (hs : ImgSet σ s s') : s'.card = s.card := by
  unfold NSet.card
  rw [(hs.perm h).length_eq, List.length_map]

theorem ImgSet.unique (h : Renumbering σ τ) {s s' s'' : NSet} (hs : ImgSet σ s s') (hs' : ImgSet σ s s'') : s' = s'' :=
  NSet.ext (h.all (fun x => by rw [hs x, hs' x]))

theorem ImgSet.has {s s' : NSet} (hs : ImgSet σ s s') (x : Nat) : s'.has (σ x) = s.has x := by
  rw [Bool.eq_iff_iff, NSet.has_iff, NSet.has_iff, hs x]

theorem ImgSet.exists (h : Renumbering σ τ) {s s' : NSet} (hs : ImgSet σ s s') {p : Nat → Prop} :
    (∃ x ∈ s', p x) ↔ ∃ x ∈ s, p (σ x) := by
  rw [h.ex]
  exact exists_congr (fun x => by rw [hs x])

theorem ImgSet.forall (h : Renumbering σ τ) {s s' : NSet} (hs : ImgSet σ s s') {p : Nat → Prop} :
    (∀ x ∈ s', p x) ↔ ∀ x ∈ s, p (σ x) :=
  ⟨fun hp x hx => hp _ ((hs x).2 hx), fun hp => h.all (fun x hx => hp x ((hs x).1 hx))⟩

/-- the map `d'` is `d` after renumbering of the keys -/
def ImgMap (σ : Nat → Nat) (d d' : NMap Nat) : Prop := ∀ x, d'.find? (σ x) = d.find? x

theorem ImgMap.keySet {d d' : NMap Nat} (hd : ImgMap σ d d') : ImgSet σ d.keySet d'.keySet := fun x => by
  rw [NMap.mem_keySet, NMap.mem_keySet, NMap.mem_keys, NMap.mem_keys, hd x]

theorem ImgMap.size (h : Renumbering σ τ) {d d' : NMap Nat} (hd : ImgMap σ d d') : d'.size = d.size := by
  rw [← NMap.card_keySet, ← NMap.card_keySet, hd.keySet.card h]

theorem imgMap_list (h : Renumbering σ τ) (l : List (Nat × Nat)) :
    ∃ d' : NMap Nat, ∀ x, d'.find? (σ x) = l.lookup x := by
  induction l with
  | nil => exact ⟨NMap.empty, fun _ => rfl⟩
  | cons e l ih =>
    obtain ⟨d', hd⟩ := ih
    refine ⟨d'.insert (σ e.1) e.2, fun x => ?_⟩
    rw [NMap.find?_insert, hd, lookup_cons_if]
    simp only [h.inj.eq_iff]

theorem ImgMap.some (h : Renumbering σ τ) (d : NMap Nat) : ∃ d', ImgMap σ d d' := imgMap_list h d.entries

theorem range_img {α : Type} {v v' : List α} (hl : v'.length = v.length) (hv : ∀ i : Nat, v'[σ i]? = v[i]?) (x : Nat) :
    σ x < v.length ↔ x < v.length := by
  have h1 : v'[σ x]? = none ↔ v[x]? = none := by rw [hv]
  rw [List.getElem?_eq_none_iff, List.getElem?_eq_none_iff, hl] at h1
  omega

/-- flags after renumbering -/
def ImgFlags (σ : Nat → Nat) (v v' : List Bool) : Prop := ∀ x, v'[σ x]? = v[x]?

theorem ImgFlags.some (h : Renumbering σ τ) {v : List Bool} (hv : ∀ x, σ x < v.length ↔ x < v.length) :
    ∃ v', ImgFlags σ v v' ∧ v'.length = v.length := by
  refine ⟨(List.range v.length).map (fun x => (v[τ x]?).getD false), fun x => ?_, by simp⟩
  rw [List.getElem?_map]
  by_cases hx : x < v.length
  · rw [List.getElem?_range ((hv x).2 hx), Option.map_some, h.back, List.getElem?_eq_getElem hx]; rfl
  · rw [List.getElem?_eq_none (by rw [List.length_range]; exact Nat.le_of_not_lt (fun hc => hx ((hv x).1 hc))), List.getElem?_eq_none (by omega)]; rfl

/-- the pool `p'` is `p` after renumbering -/
structure ImgPool (σ : Nat → Nat) (p p' : Pool) : Prop where
  top : p'.top = p.top
  queues : p'.queues = p.queues.map (List.map σ)

/-! ### Walks and distances -/

section walks
variable {R R' : Nat → Nat → Prop} {S S' : Nat → Prop}

theorem Walk.img (hR : ∀ x y, R' (σ x) (σ y) ↔ R x y) {k x y : Nat} (h : Walk R k x y) : Walk R' k (σ x) (σ y) := by
  induction h with
  | nil => exact .nil _
  | step _ h2 ih => exact .step ih ((hR _ _).2 h2)

theorem walk_img (h : Renumbering σ τ) (hR : ∀ x y, R' (σ x) (σ y) ↔ R x y) {k x y : Nat} :
    Walk R' k (σ x) (σ y) ↔ Walk R k x y := by
  refine ⟨fun hw => ?_, fun hw => hw.img hR⟩
  have := hw.img (σ := τ) (R' := R) (fun x y => by rw [← hR, h.forth, h.forth])
  rwa [h.back, h.back] at this

theorem dist_img (h : Renumbering σ τ) (hR : ∀ x y, R' (σ x) (σ y) ↔ R x y) (hS : ∀ x, S' (σ x) ↔ S x) {x k : Nat} :
    IsDistance R' S' (σ x) k ↔ IsDistance R S x k := by
  unfold IsDistance
  rw [h.ex]
  refine and_congr (exists_congr (fun w => by rw [hS, walk_img h hR])) (forall_congr' (fun j => ?_))
  exact ⟨fun hp w h1 h2 => hp (σ w) ((hS w).2 h1) ((walk_img h hR).2 h2),
    fun hp => h.all (fun w h1 h2 => hp w ((hS w).1 h1) ((walk_img h hR).1 h2))⟩

theorem reach_img (h : Renumbering σ τ) (hR : ∀ x y, R' (σ x) (σ y) ↔ R x y) (hS : ∀ x, S' (σ x) ↔ S x) {x : Nat} :
    ReachableFrom R' S' (σ x) ↔ ReachableFrom R S x := by
  unfold ReachableFrom
  refine exists_congr (fun k => ?_)
  rw [h.ex]
  exact exists_congr (fun w => by rw [hS, walk_img h hR])

theorem few_img (h : Renumbering σ τ) (hR : ∀ x y, R' (σ x) (σ y) ↔ R x y) (hS : ∀ x, S' (σ x) ↔ S x) {order m : Nat}
    (hf : FewBefore R S order m) : FewBefore R' S' order m := by
  obtain ⟨t, h1, h2, h3⟩ := hf
  refine ⟨t.map σ, h.nodup h1, h.all (fun x => ?_), by rw [List.length_map]; exact h3⟩
  rw [h.mem, h2]
  exact exists_congr (fun k => by rw [dist_img h hR hS])

end walks

/-! ### Graphs -/

/-- the graph `g'` is `g` after renumbering -/
structure ImgGraph (σ : Nat → Nat) (g g' : Graph W) : Prop where
  faces : ∀ i, (facesOf g' (σ i)).Perm ((facesOf g i).map (fun e => (σ e.1, e.2)))
  rows : ∀ i, (rowOf g'.rowPtr g'.colInd (σ i)).Perm ((rowOf g.rowPtr g.colInd i).map σ)
  entries : ∀ i, (entriesOfRow g'.rowPtr g'.values (σ i)).Perm (entriesOfRow g.rowPtr g.values i)
  volumes : ∀ i, g'.volumes[σ i]? = g.volumes[i]?
  centers : ∀ i, g'.centers[σ i]? = g.centers[i]?
  nBnd : ∀ i, g'.nBnd[σ i]? = g.nBnd[i]?
  dim : g'.dim = g.dim

section graphs
variable {g g' : Graph W} (h : Renumbering σ τ) (hg : ImgGraph σ g g')
include h hg

theorem ImgGraph.adj {x y : Nat} : Adj g'.rowPtr g'.colInd (σ x) (σ y) ↔ Adj g.rowPtr g.colInd x y := by
  rw [adj_iff_rowOf, adj_iff_rowOf, (hg.rows x).mem_iff, h.mem]

theorem ImgGraph.freeAdj {agg agg' : List Bool} (ha : ImgFlags σ agg agg') (x y : Nat) :
    FreeAdj g'.rowPtr g'.colInd agg' (σ x) (σ y) ↔ FreeAdj g.rowPtr g.colInd agg x y := by
  unfold FreeAdj
  rw [hg.adj h, ha y]

theorem ImgGraph.countP {x : Nat} {p p' : Nat → Bool} (hp : ∀ y, p' (σ y) = p y) :
    (rowOf g'.rowPtr g'.colInd (σ x)).countP p' = (rowOf g.rowPtr g.colInd x).countP p := by
  rw [(hg.rows x).countP_eq, List.countP_map]
  exact List.countP_congr (fun y _ => by rw [Function.comp_apply, hp])

theorem ImgGraph.shared {s s' : NSet} (hs : ImgSet σ s s') (x : Nat) :
    nbShared (rowOf g'.rowPtr g'.colInd (σ x)) s' = nbShared (rowOf g.rowPtr g.colInd x) s := by
  unfold nbShared
  rw [(hs.perm h).countP_eq, List.countP_map]
  refine List.countP_congr (fun y _ => ?_)
  rw [Function.comp_apply, List.contains_iff_mem, List.contains_iff_mem, (hg.rows x).mem_iff, h.mem]

theorem ImgGraph.compactness {s s' : NSet} (hs : ImgSet σ s s') (k : Nat) :
    IsCompactness g'.rowPtr g'.colInd s' k ↔ IsCompactness g.rowPtr g.colInd s k := by
  unfold IsCompactness
  rw [hs.card h, hs.exists h, hs.forall h]
  simp only [hg.shared h hs]

theorem ImgGraph.external {s s' : NSet} (hs : ImgSet σ s s') : externalFaces g' s' = externalFaces g s := by
  unfold externalFaces
  rw [((hs.perm h).map _).sum_nat, List.map_map]
  congr 1
  refine List.map_congr_left (fun x _ => ?_)
  rw [Function.comp_apply, hg.nBnd, hg.countP h (p := fun y => !s.has y) (fun y => by rw [hs.has])]

theorem ImgGraph.front {al al' : NSet} (hal : ImgSet σ al al') {xs : List Nat} (x : Nat) :
    InFront g'.rowPtr g'.colInd al' (xs.map σ) (σ x) ↔ InFront g.rowPtr g.colInd al xs x := by
  unfold InFront
  rw [hal x, h.mem, h.ex]
  simp only [h.mem, hg.adj h]

theorem ImgGraph.first {xs : List Nat} {x i : Nat} (hf : FirstNextTo g.rowPtr g.colInd xs x i) :
    FirstNextTo g'.rowPtr g'.colInd (xs.map σ) (σ x) i := by
  obtain ⟨⟨y, h1, h2⟩, h3⟩ := hf
  refine ⟨⟨σ y, by rw [List.getElem?_map, h1]; rfl, (hg.adj h).2 h2⟩, fun j z hj hz => ?_⟩
  rw [List.getElem?_map] at hz
  obtain ⟨y, hy, rfl⟩ := Option.map_eq_some_iff.1 hz
  rw [hg.adj h]
  exact h3 j y hj hy

end graphs

/-! ### Priorities -/

/-- cells are compared alike by priority -/
def ImgPrio (σ : Nat → Nat) (prio prio' : List W) : Prop := ∀ x y, Before prio x y → Before prio' (σ x) (σ y)

theorem ImgPrio.of {prio prio' : List W} (h1 : ∀ i : Nat, prio'[σ i]? = prio[i]?) (h2 : KeepsTies σ prio) : ImgPrio σ prio prio' := by
  rintro x y ⟨wa, wb, ha, hb, hab⟩
  refine ⟨wa, wb, by rw [h1, ha], by rw [h1, hb], ?_⟩
  rcases hab with hab | ⟨rfl, hab⟩
  · exact Or.inl hab
  · exact Or.inr ⟨rfl, h2 _ _ _ ha hb hab⟩

theorem KeepsTies.symm (h : Renumbering σ τ) {prio prio' : List W} (h1 : ∀ i : Nat, prio'[σ i]? = prio[i]?)
    (h2 : KeepsTies σ prio) : KeepsTies τ prio' := by
  intro i j w hi hj hij
  by_contra hlt
  rw [← h.forth i, h1] at hi
  rw [← h.forth j, h1] at hj
  rcases Nat.lt_or_ge (τ j) (τ i) with hji | hji
  · have := h2 _ _ _ hj hi hji
    rw [h.forth, h.forth] at this
    omega
  · have he : τ i = τ j := by omega
    have : i = j := by rw [← h.forth i, ← h.forth j, he]
    omega

theorem ImgPrio.ordered {prio prio' : List W} (hp : ImgPrio σ prio prio') {l : List Nat} (hl : PriorityOrdered prio l) :
    PriorityOrdered prio' (l.map σ) := by
  unfold PriorityOrdered at *
  rw [List.pairwise_map]
  exact hl.imp (hp _ _)

/-! ### Candidates -/

theorem ImgGraph.candidates (h : Renumbering σ τ) {g g' : Graph W} (hg : ImgGraph σ g g') {prio prio' : List W}
    (hp : ImgPrio σ prio prio') {kind : NbhKind} {al al' : NSet} (hal : ImgSet σ al al') {xs l : List Nat}
    (hc : Candidates g kind prio al xs l) : Candidates g' kind prio' al' (xs.map σ) (l.map σ) := by
  cases kind with
  | extended =>
    obtain ⟨h1, h2⟩ := hc
    refine ⟨h.all (fun x => by rw [h.mem, h1, hg.front h hal]), ?_⟩
    rw [List.pairwise_map]
    refine h2.imp ?_
    rintro x y ⟨i, j, hi, hj, hij⟩
    refine ⟨i, j, hg.first h hi, hg.first h hj, ?_⟩
    rcases hij with hij | ⟨hij, hb⟩
    · exact Or.inl hij
    · exact Or.inr ⟨hij, hp _ _ hb⟩
  | pureFront =>
    obtain ⟨h1, h2, h3⟩ := hc
    refine ⟨hp.ordered h1, fun hd => h.all (fun x => ?_), fun hd => ?_⟩
    · rw [List.length_map, hg.dim] at hd
      rw [h.mem, h2 hd, hg.front h hal]
    · rw [List.length_map, hg.dim] at hd
      rcases h3 hd with ⟨rfl, h4⟩ | ⟨h4, i, y, h5, h6, h7⟩
      · exact Or.inl ⟨rfl, h.all (fun x => by rw [hg.front h hal]; exact h4 x)⟩
      · refine Or.inr ⟨fun he => h4 (List.map_eq_nil_iff.1 he), i, σ y, by rw [List.getElem?_map, h5]; rfl,
          h.all (fun x => by rw [h.mem, h6, hg.front h hal, hg.adj h]), fun j z hz hx => ?_⟩
        rw [List.getElem?_map] at hz
        obtain ⟨u, hu, rfl⟩ := Option.map_eq_some_iff.1 hz
        rw [List.length_map]
        apply h7 j u hu
        rw [h.ex] at hx
        simpa only [hg.front h hal, hg.adj h] using hx

/-! ### Aspect ratios -/

section ratios
variable {g g' : Graph W} (h : Renumbering σ τ) (hg : ImgGraph σ g g') (hA : CommAdd W)
include h hg

theorem ImgGraph.volumeAt (x : Nat) : volumeAt g' (σ x) = volumeAt g x := by
  unfold CoMMA.volumeAt; rw [hg.volumes]

theorem ImgGraph.centerAt (x : Nat) : centerAt g' (σ x) = centerAt g x := by
  unfold CoMMA.centerAt; rw [hg.centers]

theorem ImgGraph.pairDist {s s' : NSet} (hs : ImgSet σ s s') : PairDist g' s' = PairDist g s := by
  funext d
  unfold PairDist
  rw [hs.exists h, eq_iff_iff]
  refine exists_congr (fun x => and_congr_right (fun _ => ?_))
  rw [hs.exists h]
  simp only [hg.centerAt h, h.inj.ne_iff]

theorem ImgGraph.freeFaces {s s' : NSet} (hs : ImgSet σ s s') (x : Nat) : freeFaces g' s' (σ x) = freeFaces g s x := by
  unfold CoMMA.freeFaces
  rw [hg.nBnd, hg.countP h (p := fun y => !s.has y) (fun y => by rw [hs.has])]

include hA

theorem ImgSet.sumOver {s s' : NSet} (hs : ImgSet σ s s') {f f' : Nat → W} (hf : ∀ x, f' (σ x) = f x) :
    sumOver s'.elems f' = sumOver s.elems f := by
  rw [sumOver_perm hA (hs.perm h)]
  unfold CoMMA.sumOver
  rw [List.map_map]
  congr 1
  exact List.map_congr_left (fun x _ => hf x)

theorem ImgGraph.weightTo {p p' : Nat → Bool} (hp : ∀ y, p' (σ y) = p y) (x : Nat) : weightTo g' (σ x) p' = weightTo g x p := by
  unfold CoMMA.weightTo
  rw [sumW_perm hA (((hg.faces x).filter _).map _), List.filter_map, List.map_map]
  congr 1
  have : List.filter ((fun e : Nat × W => p' e.1) ∘ fun e => (σ e.1, e.2)) (facesOf g x) = (facesOf g x).filter (fun e => p e.1) :=
    List.filter_congr (fun e _ => by rw [Function.comp_apply, hp])
  rw [this]
  rfl

theorem ImgGraph.boundary (x : Nat) : boundaryEstimate g' (σ x) = boundaryEstimate g x := by
  unfold boundaryEstimate
  rw [hg.nBnd, sumW_perm hA (hg.entries x), (hg.rows x).length_eq, List.length_map]

theorem ImgGraph.measure {s s' : NSet} (hs : ImgSet σ s s') : measureOf g' s' = measureOf g s :=
  hs.sumOver h hg hA (hg.volumeAt h)

theorem ImgGraph.externalWeight {s s' : NSet} (hs : ImgSet σ s s') : externalWeight g' s' = externalWeight g s :=
  hs.sumOver h hg hA (fun x => by
    rw [hg.boundary h hA, hg.weightTo h hA (p := fun y => !s.has y) (fun y => by rw [hs.has])])

theorem ImgGraph.symWeights (hs : SymWeights g) : SymWeights g' := by
  refine h.all (fun i => h.all (fun j => ?_))
  rw [hg.weightTo h hA (p := fun n => decide (n = j)) (fun y => by simp only [h.inj.eq_iff]),
    hg.weightTo h hA (p := fun n => decide (n = i)) (fun y => by simp only [h.inj.eq_iff]), hs]

theorem ImgGraph.internalList (hs : SymWeights g) {xs : List Nat} (hn : xs.Nodup) :
    internalWeight g' (NSet.ofList (xs.map σ)) = internalWeight g (NSet.ofList xs) := by
  induction xs with
  | nil => rfl
  | cons x xs ih =>
    obtain ⟨h1, h2⟩ := List.nodup_cons.1 hn
    have e1 : NSet.ofList (x :: xs) = (NSet.ofList xs).insert x := NSet.ext (fun a => by simp)
    have e2 : NSet.ofList ((x :: xs).map σ) = (NSet.ofList (xs.map σ)).insert (σ x) := NSet.ext (fun a => by simp)
    rw [e1, e2, internalWeight_insert hA hs (by rw [NSet.mem_ofList]; exact h1),
      internalWeight_insert hA (hg.symWeights h hA hs) (by rw [NSet.mem_ofList, h.mem]; exact h1), ih h2,
      hg.weightTo h hA (p := fun n => (NSet.ofList xs).has n) (fun y => by rw [(ImgSet.ofList h xs).has])]

theorem ofList_elems (s : NSet) : NSet.ofList s.elems = s := NSet.ext (fun a => by simp)

theorem ImgGraph.internal (hsym : SymWeights g) {s s' : NSet} (hs : ImgSet σ s s') : internalWeight g' s' = internalWeight g s := by
  have h1 := hg.internalList h hA hsym s.nodup
  have h2 := ImgSet.ofList h s.elems
  rw [ofList_elems h hg hA] at h1 h2
  rw [← h1, hs.unique h h2]

theorem ImgGraph.moment {s s' : NSet} (hs : ImgSet σ s s') (j : Nat) : momentOf g' s' j = momentOf g s j :=
  hs.sumOver h hg hA (fun x => by rw [hg.volumeAt h, hg.centerAt h])

theorem ImgGraph.bary {s s' : NSet} (hs : ImgSet σ s s') (D : Nat) : baryOf g' s' D = baryOf g s D := by
  unfold baryOf
  simp only [hg.moment h hA hs, hs.card h]

theorem ImgGraph.baryDist2 {s s' : NSet} (hs : ImgSet σ s s') (D : Nat) : BaryDist2 g' s' D = BaryDist2 g s D := by
  funext d
  unfold BaryDist2
  rw [hs.exists h, hg.bary h hA hs]
  simp only [hg.centerAt h]

theorem ImgGraph.baryDist {s s' : NSet} (hs : ImgSet σ s s') (D : Nat) : BaryDist g' s' D = BaryDist g s D := by
  funext d
  unfold BaryDist
  rw [hs.exists h, hg.bary h hA hs]
  simp only [hg.centerAt h, hg.freeFaces h hs]

theorem ImgGraph.overRadius {s s' : NSet} (hs : ImgSet σ s s') (x : W) : overRadius g' s' x = overRadius g s x := by
  unfold CoMMA.overRadius
  rw [hg.dim, hg.measure h hA hs]

theorem ImgGraph.ratio {kind : ARKind} (hsym : kind.weights = true → SymWeights g) {s s' : NSet} (hs : ImgSet σ s s') (r : W) :
    RatioOf g' kind s' r ↔ RatioOf g kind s r := by
  have hcen : ∀ D, (∀ i ∈ s', (CoMMA.centerAt g' i).length = D) ↔ (∀ i ∈ s, (CoMMA.centerAt g i).length = D) := fun D => by
    rw [hs.forall h]
    simp only [hg.centerAt h]
  cases kind with
  | overInternal =>
    unfold RatioOf
    simp only [hg.internal h hA (hsym rfl) hs]
  | _ =>
    unfold RatioOf
    simp only [hg.pairDist h hs, hg.overRadius h hA hs, hs.card h, hg.measure h hA hs, hg.externalWeight h hA hs, hg.dim,
      hg.baryDist2 h hA hs, hg.baryDist h hA hs, hcen]

end ratios

/-! ### Growth -/

theorem FirstBest.img (h : Renumbering σ τ) {R R' : Nat → Merit W → F → Prop} {l : List Nat} {c : Nat} {m : Merit W} {f : F}
    (hR : ∀ x ∈ l, ∀ m f, R x m f → R' (σ x) m f) (hb : FirstBest R l c m f) : FirstBest R' (l.map σ) (σ c) m f := by
  obtain ⟨μ, h1, h2, h3, pre, post, h4, h5⟩ := hb
  refine ⟨fun x => μ (τ x), ?_, by simp only [h.back]; exact h2, ?_, pre.map σ, post.map σ, by rw [h4]; simp, ?_⟩
  · intro x hx
    obtain ⟨y, hy, rfl⟩ := List.mem_map.1 hx
    simp only [h.back]
    exact hR y hy _ _ (h1 y hy)
  · intro x hx
    obtain ⟨y, hy, rfl⟩ := List.mem_map.1 hx
    simp only [h.back]
    exact h3 y hy
  · intro x hx
    obtain ⟨y, hy, rfl⟩ := List.mem_map.1 hx
    simp only [h.back]
    exact h5 y hy

/-- the input `E'` is `E` after renumbering -/
structure ImgEnv (σ : Nat → Nat) (E E' : IsoEnv W F) : Prop where
  graph : ImgGraph σ E.g E'.g
  prio : ImgPrio σ E.pool.prio E'.pool.prio
  bnd : ∀ i : Nat, E'.pool.nBnd[σ i]? = E.pool.nBnd[i]?
  kind : E'.pool.kind = E.pool.kind
  onePoint : E'.pool.onePoint = E.pool.onePoint
  nbh : E'.nbh = E.nbh
  fcIter : E'.fcIter = E.fcIter
  minCard : E'.minCard = E.minCard
  goalCard : E'.goalCard = E.goalCard
  maxCard : E'.maxCard = E.maxCard

section growth
variable {E E' : IsoEnv W F} (h : Renumbering σ τ) (hE : ImgEnv σ E E') {kind : ARKind} (hA : CommAdd W)
  (hsym : kind.weights = true → SymWeights E.g)
include h hE

theorem ImgEnv.candidates {al al' : NSet} (hal : ImgSet σ al al') {xs l : List Nat}
    (hc : Candidates E.g E.nbh E.pool.prio al xs l) : Candidates E'.g E'.nbh E'.pool.prio al' (xs.map σ) (l.map σ) := by
  rw [hE.nbh]
  exact hE.graph.candidates h hE.prio hal hc

include hA hsym

theorem TrueMerit.img {d d' : NMap Nat} (hd : ImgMap σ d d') {cc cc' : NSet} (hs : ImgSet σ cc cc') {c : Nat} {m : Merit W}
    (hm : TrueMerit E.g kind d cc c m) : TrueMerit E'.g kind d' cc' (σ c) m where
  faces := by rw [hm.faces, hE.graph.shared h hs]
  order := by rw [hd c]; exact hm.order
  ratio := (hE.graph.ratio h hA hsym (hs.insert h c) _).2 hm.ratio

theorem TrueLook.img {d d' : NMap Nat} (hd : ImgMap σ d d') (k : Nat) : ∀ {xs : List Nat} {c : Nat} {m : Merit W},
    TrueLook E kind d k xs c m () → TrueLook E' kind d' k (xs.map σ) (σ c) m () := by
  induction k with
  | zero =>
    intro xs c m hm
    exact TrueMerit.img h hE hA hsym hd (ImgSet.ofList h xs) hm
  | succ k ih =>
    rintro xs c m ⟨m0, l, h1, h2, h3⟩
    have e : (xs ++ [c]).map σ = xs.map σ ++ [σ c] := by simp
    refine ⟨m0, l.map σ, TrueMerit.img h hE hA hsym hd (ImgSet.ofList h xs) h1, by rw [← e]; exact hE.candidates h hd.keySet h2, ?_⟩
    rcases h3 with ⟨rfl, h3⟩ | ⟨c2, m2, h3, h4⟩
    · exact Or.inl ⟨rfl, h3⟩
    · refine Or.inr ⟨σ c2, m2, ?_, ?_⟩
      · rw [← e]
        exact h3.img h (fun x _ m _ hx => ih hx)
      · rw [h4, ← e, hE.graph.shared h (ImgSet.ofList h _)]

theorem ShapedSeq.img {d d' : NMap Nat} (hd : ImgMap σ d d') {hi : Nat} {xs : List Nat} (hs : ShapedSeq E kind d hi xs) :
    ShapedSeq E' kind d' hi (xs.map σ) := by
  induction hs with
  | seed => exact .seed
  | @next xs l c m _ h2 h3 ih =>
    rw [List.map_append]
    refine .next ih (hE.candidates h hd.keySet h2) (m := m) ?_
    rw [List.length_map, hE.fcIter]
    exact h3.img h (fun x _ m _ hx => TrueLook.img h hE hA hsym hd _ hx)

omit hA hsym in
theorem GrownCell.img {G G' : NMap Nat → Nat → List Nat → Prop}
    (hG : ∀ d d' hi xs, ImgMap σ d d' → G d hi xs → G' d' hi (xs.map σ)) {agg agg' : List Bool} (ha : ImgFlags σ agg agg')
    {seed order : Nat} {s s' : NSet} (hs : ImgSet σ s s') (hc : GrownCell E G agg seed order s) :
    GrownCell E' G' agg' (σ seed) order s' := by
  obtain ⟨d, h1, h2, h3, h4, h5⟩ := hc
  obtain ⟨d', hd⟩ := ImgMap.some h d
  have hR := hE.graph.freeAdj h ha
  have hS : ∀ x, σ x = σ seed ↔ x = seed := fun x => h.inj.eq_iff
  refine ⟨d', h.all (fun x k => ?_), ?_, ?_, ?_, ?_⟩
  · rw [hd x, h1, dist_img h hR hS]
  · rw [hE.graph.dim, hE.maxCard, hd.size h]
    refine h2.imp_left (fun h2 => h.all (fun x hx => ?_))
    rw [reach_img h hR hS] at hx
    rw [hS, hd.keySet x]
    exact h2 x hx
  · rw [hE.graph.dim, hE.maxCard]
    exact h3.imp_right (few_img h hR hS)
  · rw [hd.size h, hE.goalCard]
    exact fun hlt => h.all (fun x => by rw [hs x, h4 hlt, hS, hd.keySet x])
  · rw [hd.size h, hE.goalCard, hE.maxCard, hE.minCard]
    intro hle
    obtain ⟨xs, κ, m, a1, a2, a3, a4, a5, a6, a7⟩ := h5 hle
    refine ⟨xs.map σ, κ, m, hG _ _ _ _ hd a1, by rw [List.head?_map, a2]; rfl, by rw [List.length_map, a3], h.nodup a4, ?_, ?_, ?_⟩
    · intro j j1 j2
      rw [List.length_map] at j2
      rw [← List.map_take, hE.graph.compactness h (ImgSet.ofList h _)]
      exact a5 j j1 j2
    · have : (fun j : Nat => (externalFaces E'.g (NSet.ofList ((xs.map σ).take j)) : Int) - j) =
          fun j : Nat => (externalFaces E.g (NSet.ofList (xs.take j)) : Int) - j := by
        funext j
        rw [← List.map_take, hE.graph.external h (ImgSet.ofList h _)]
      rw [List.length_map, this]
      exact a6
    · rw [← List.map_take]
      exact hs.unique h (by rw [a7]; exact ImgSet.ofList h _)

end growth

/-! ### The pool -/

/-- the pool configuration `c'` is `c` after renumbering -/
structure ImgCfg (σ : Nat → Nat) (c c' : PoolCfg W) : Prop where
  prio : ImgPrio σ c.prio c'.prio
  bnd : ∀ i : Nat, c'.nBnd[σ i]? = c.nBnd[i]?
  kind : c'.kind = c.kind
  onePoint : c'.onePoint = c.onePoint

theorem ImgEnv.cfg {E E' : IsoEnv W F} (hE : ImgEnv σ E E') : ImgCfg σ E.pool E'.pool := ⟨hE.prio, hE.bnd, hE.kind, hE.onePoint⟩

theorem ImgPool.queue {p p' : Pool} (hp : ImgPool σ p p') (k : Nat) : p'.queues[k]? = (p.queues[k]?).map (List.map σ) := by
  rw [hp.queues, List.getElem?_map]

theorem ImgPool.back {p p' : Pool} (hp : ImgPool σ p p') {k : Nat} {q : List Nat} (hq : p'.queues[k]? = some q) :
    ∃ q0, p.queues[k]? = some q0 ∧ q = q0.map σ := by
  rw [hp.queue] at hq
  obtain ⟨q0, h1, h2⟩ := Option.map_eq_some_iff.1 hq
  exact ⟨q0, h1, h2.symm⟩

theorem ImgPool.some (σ : Nat → Nat) (p : Pool) : ∃ p', ImgPool σ p p' :=
  ⟨{ p with queues := p.queues.map (List.map σ) }, rfl, rfl⟩

section pool
variable {c c' : PoolCfg W} (h : Renumbering σ τ) (hc : ImgCfg σ c c')
include h hc

theorem SeedsJoined.img {t t' : NSet} (ht : ImgSet σ t t') {p p1 p' p1' : Pool} (hp : ImgPool σ p p') (hp1 : ImgPool σ p1 p1')
    (hj : SeedsJoined c t p p1) : SeedsJoined c' t' p' p1' where
  size := by rw [hp.queues, hp1.queues, List.length_map, List.length_map, hj.size]
  queues := by
    intro k q hq
    obtain ⟨q0, hq0, rfl⟩ := hp.back hq
    obtain ⟨l, h1, h2, h3⟩ := hj.queues k q0 hq0
    refine ⟨l.map σ, by rw [hp1.queue, h1, Option.map_some, List.map_append], h.all (fun s => ?_), ?_⟩
    · rw [h.mem, h2, ht s, hc.kind, hp.top, hc.bnd]
    · rw [List.pairwise_map]
      refine h3.imp ?_
      rintro x y ⟨bx, bny, g1, g2, g3⟩
      refine ⟨bx, bny, by rw [hc.bnd, g1], by rw [hc.bnd, g2], ?_⟩
      exact g3.imp_right (fun ⟨e, g⟩ => ⟨e, hc.prio _ _ g⟩)
  keep := by
    intro hk
    rw [hp.top, hp1.top]
    apply hj.keep
    rw [hc.kind] at hk
    exact hk.imp_right (fun hk s hs => hk (σ s) ((ht s).2 hs))
  raise := by
    rw [hc.kind, hp.top, hp1.top]
    rintro hk ⟨s, hs⟩
    obtain ⟨t, h1, h2, h3, h4⟩ := hj.raise hk ⟨τ s, by rw [← ht, h.forth]; exact hs⟩
    refine ⟨t, h1, h2, h.all (fun s hs b hb => h3 s ((ht s).1 hs) b (by rw [← hc.bnd]; exact hb)), ?_⟩
    refine h4.imp_right (fun ⟨s, h5, h6⟩ => ⟨σ s, (ht s).2 h5, by rw [hc.bnd]; exact h6⟩)

theorem JoinedInTurn.img {gs gs' : List NSet} (hg : List.Forall₂ (ImgSet σ) gs gs') {p p1 : Pool} (hj : JoinedInTurn c gs p p1) :
    ∀ {p' p1' : Pool}, ImgPool σ p p' → ImgPool σ p1 p1' → JoinedInTurn c' gs' p' p1' := by
  induction hj generalizing gs' with
  | none =>
    intro p' p1' hp hp1
    cases hg
    have : p' = p1' := by
      obtain ⟨q, t⟩ := p'
      obtain ⟨q1, t1⟩ := p1'
      have e1 := hp.queues; have e2 := hp1.queues; have e3 := hp.top; have e4 := hp1.top
      simp only at *
      subst e1 e2 e3 e4
      rfl
    subst this
    exact .none
  | @next t gs p p2 p3 h1 _ ih =>
    intro p' p1' hp hp1
    cases hg with
    | cons ht hg =>
      obtain ⟨p2', hp2⟩ := ImgPool.some σ p2
      exact .next (h1.img h hc ht hp hp2) (ih hg hp2 hp1)

theorem FreeOfLevel.img {agg agg' : List Bool} (ha : ImgFlags σ agg agg') {k : Nat} {l : List Nat} (hf : FreeOfLevel c agg k l) :
    FreeOfLevel c' agg' k (l.map σ) :=
  ⟨hc.prio.ordered hf.1, h.all (fun i => by rw [h.mem, hf.2, hc.bnd, ha i])⟩

omit hc in
theorem FirstFree.img {agg agg' : List Bool} (ha : ImgFlags σ agg agg') {q rest : List Nat} {s : Nat} (hf : FirstFree agg q s rest) :
    FirstFree agg' (q.map σ) (σ s) (rest.map σ) := by
  obtain ⟨pre, h1, h2, h3⟩ := hf
  refine ⟨pre.map σ, by rw [h1]; simp, ?_, by rw [ha]; exact h3⟩
  intro x hx
  obtain ⟨y, hy, rfl⟩ := List.mem_map.1 hx
  rw [ha]
  exact h2 y hy

omit hc in
theorem NoneWaiting.img {agg agg' : List Bool} (ha : ImgFlags σ agg agg') {p p' : Pool} (hp : ImgPool σ p p') {lo t : Nat}
    (hn : NoneWaiting agg p lo t) : NoneWaiting agg' p' lo t := by
  intro k q h1 h2 hq x hx
  obtain ⟨q0, hq0, rfl⟩ := hp.back hq
  obtain ⟨y, hy, rfl⟩ := List.mem_map.1 hx
  rw [ha]
  exact hn k q0 h1 h2 hq0 y hy

/-- the level in use is not below that of a free cell -/
def TopBounds (c : PoolCfg W) (agg : List Bool) (p : Pool) : Prop :=
  ∀ (i b : Nat), c.nBnd[i]? = some b → agg[i]? = some false → ∃ t, p.top = some t ∧ b ≤ t

omit h in
theorem ImgCfg.nextLevel {agg agg' : List Bool} (ha : ImgFlags σ agg agg') {t cur : Nat} (h : Renumbering σ τ)
    (hb : ∀ (i : Nat) b, c.nBnd[i]? = some b → agg[i]? = some false → b ≤ t) (hn : NextLevel c.nBnd agg t cur) :
    NextLevel c'.nBnd agg' t cur := by
  rcases hn with ⟨i, h1, h2, h3, h4⟩ | ⟨⟨i, h1, h2⟩, h3, h4⟩
  · have hct : cur = t := Nat.le_antisymm (hb i cur h1 h2) h3
    subst hct
    have : ∃ j, c'.nBnd[j]? = some cur ∧ agg'[j]? = some false := ⟨σ i, by rw [hc.bnd]; exact h1, by rw [ha]; exact h2⟩
    classical
    obtain ⟨m1, m2⟩ := Nat.find_spec this
    refine Or.inl ⟨Nat.find this, m1, m2, Nat.le_refl _, fun j b hj hb1 hb2 => ?_⟩
    rcases Nat.lt_or_ge b cur with hlt | hge
    · exact hlt
    · have hb' : b ≤ cur := hb (τ j) b (by rw [← hc.bnd, h.forth]; exact hb1) (by rw [← ha, h.forth]; exact hb2)
      have : b = cur := by omega
      subst this
      exact absurd ⟨hb1, hb2⟩ (Nat.find_min _ hj)
  · refine Or.inr ⟨⟨σ i, by rw [hc.bnd]; exact h1, by rw [ha]; exact h2⟩, h3, h.all (fun j b hb1 hb2 => ?_)⟩
    exact h4 j b (by rw [← hc.bnd]; exact hb1) (by rw [← ha]; exact hb2)

/-- the level to which the pool may go next does not depend on the numbering: no free cell has a
higher one than that in use, or some free cell waits -/
def LevelSettled (c : PoolCfg W) (agg : List Bool) (p : Pool) : Prop :=
  TopBounds c agg p ∨ ∃ t, p.top = some t ∧ ¬ NoneWaiting agg p (lowestLevel c.kind t) t

theorem SeedChosen.img {agg agg' : List Bool} (ha : ImgFlags σ agg agg') {p p1 p' p1' : Pool} (hp : ImgPool σ p p')
    (hp1 : ImgPool σ p1 p1') (hb : LevelSettled c agg p) {s : Nat} (hs : SeedChosen c agg p (some s) p1) :
    SeedChosen c' agg' p' (some (σ s)) p1' := by
  have hlen : ∀ {q q1 : List (List Nat)}, q1.length = q.length → (q1.map (List.map σ)).length = (q.map (List.map σ)).length := by
    intro q q1 e; rw [List.length_map, List.length_map, e]
  cases hs with
  | @waiting t k s q rest p1 h1 h2 h3 h4 h5 h6 h7 h8 h9 =>
    refine .waiting (t := t) (k := k) (q := q.map σ) (rest := rest.map σ) (by rw [hp.top, h1]) (by rw [hc.kind]; exact h2) h3
      (h4.img h ha hp) (by rw [hp.queue, h5]; rfl) (h6.img h ha) (by rw [hp1.top, h7]) (by rw [hp.queues, hp1.queues]; exact hlen h8) ?_
    intro j r hr
    obtain ⟨r0, hr0, rfl⟩ := hp.back hr
    rw [hp1.queue, h9 j r0 hr0, Option.map_some]
    congr 1
    split
    · rfl
    · split <;> rfl
  | @otherLevel t cur s q rest p1 h1 h2 h3 h4 h5 h6 h7 h8 =>
    have hle : ∀ (i : Nat) b, c.nBnd[i]? = some b → agg[i]? = some false → b ≤ t := by
      intro i b hb1 hb2
      rcases hb with hb | ⟨t', ht', hno⟩
      · obtain ⟨t', ht', hle⟩ := hb i b hb1 hb2
        rw [h1] at ht'
        cases ht'
        exact hle
      · rw [h1] at ht'
        cases ht'
        exact absurd h2 hno
    refine .otherLevel (t := t) (cur := cur) (q := q.map σ) (rest := rest.map σ) (by rw [hp.top, h1]) (by rw [hc.kind]; exact h2.img h ha hp)
      (hc.nextLevel ha h hle h3) (by rw [hp.queue, h4]; rfl) ?_ (by rw [hp1.top, h6]) (by rw [hp.queues, hp1.queues]; exact hlen h7) ?_
    · rcases h5 with h5 | ⟨h5, h5'⟩
      · exact Or.inl (h5.img h ha)
      · refine Or.inr ⟨?_, h5'.img h hc ha⟩
        intro x hx
        obtain ⟨y, hy, rfl⟩ := List.mem_map.1 hx
        rw [ha]
        exact h5 y hy
    · intro j r hr
      obtain ⟨r0, hr0, rfl⟩ := hp.back hr
      rw [hp1.queue, h8 j r0 hr0, Option.map_some, hc.kind]
      congr 1
      split
      · rfl
      · split <;> rfl

theorem PoolStarted.img {p p' : Pool} (hp : ImgPool σ p p') (hs : PoolStarted c p) (hl : c'.nBnd.length = c.nBnd.length) :
    PoolStarted c' p' := by
  obtain ⟨t, l, h1, h2, h3, h4, h5⟩ := hs.start
  refine ⟨t, l.map σ, by rw [hp.top, h1], ?_, ?_, ?_, ?_⟩
  · obtain ⟨i, hi⟩ := List.mem_iff_getElem?.1 h2
    exact List.mem_iff_getElem?.2 ⟨σ i, by rw [hc.bnd]; exact hi⟩
  · intro b hb
    obtain ⟨i, hi⟩ := List.mem_iff_getElem?.1 hb
    exact h3 b (List.mem_iff_getElem?.2 ⟨τ i, by rw [← hc.bnd, h.forth]; exact hi⟩)
  · rw [hp.queues, h4, List.map_set, hc.onePoint]
    congr 1
    split
    · rw [List.map_take]
    · rfl
  · refine h5.img h hc (fun x => ?_)
    have := range_img hl hc.bnd x
    rw [hl, List.getElem?_replicate, List.getElem?_replicate]
    simp only [this]

end pool

/-! ### The run -/

theorem SeedChosen.bounds {c : PoolCfg W} (hk : c.kind = .boundary) {agg : List Bool} {p p1 : Pool} {s : Nat}
    (hb : TopBounds c agg p) (h : SeedChosen c agg p (some s) p1) : TopBounds c agg p1 := by
  cases h with
  | @waiting t k s q rest p1 h1 h2 h3 h4 h5 h6 h7 h8 h9 =>
    have : k = t := by rw [hk] at h2; exact Nat.le_antisymm h3 h2
    subst this
    intro i b hi ha
    rw [h7, ← h1]
    exact hb i b hi ha
  | @otherLevel t cur s q rest p1 h1 h2 h3 h4 h5 h6 h7 h8 =>
    intro i b hi ha
    refine ⟨cur, h6, ?_⟩
    obtain ⟨t', ht', hle⟩ := hb i b hi ha
    rw [h1] at ht'
    cases ht'
    rcases h3 with ⟨j, g1, g2, g3, g4⟩ | ⟨_, _, g3⟩
    · omega
    · exact g3 i b hi ha

theorem SeedsJoined.bounds {c : PoolCfg W} (hk : c.kind = .boundary) {agg : List Bool} {t : NSet} {p p1 : Pool}
    (hb : TopBounds c agg p) (h : SeedsJoined c t p p1) : TopBounds c agg p1 := by
  intro i b hi ha
  obtain ⟨t0, ht0, hle⟩ := hb i b hi ha
  by_cases hs : ∃ s, s ∈ t
  · obtain ⟨t1, h1, h2, _⟩ := h.raise hk hs
    exact ⟨t1, h1, Nat.le_trans hle (h2 _ ht0)⟩
  · rw [h.keep (Or.inr (fun s hs' => hs ⟨s, hs'⟩))]
    exact ⟨t0, ht0, hle⟩

theorem JoinedInTurn.bounds {c : PoolCfg W} (hk : c.kind = .boundary) {agg : List Bool} {gs : List NSet} {p p1 : Pool}
    (h : JoinedInTurn c gs p p1) : TopBounds c agg p → TopBounds c agg p1 := by
  induction h with
  | none => exact id
  | next h1 _ ih => exact fun hb => ih (h1.bounds hk hb)

section run
variable {E E' : IsoEnv W F} (h : Renumbering σ τ) (hE : ImgEnv σ E E')
include h hE

theorem SeedsQueued.img {agg agg' : List Bool} (ha : ImgFlags σ agg agg') {seed order : Nat} {s s' : NSet} (hs : ImgSet σ s s')
    {p p1 p' p1' : Pool} (hp : ImgPool σ p p') (hp1 : ImgPool σ p1 p1') (hq : SeedsQueued E agg seed order s p p1) :
    SeedsQueued E' agg' (σ seed) order s' p' p1' := by
  obtain ⟨gs, h1, h2, h3, h4, h5⟩ := hq
  have hR := hE.graph.freeAdj h ha
  have hS : ∀ x, σ x = σ seed ↔ x = seed := fun x => h.inj.eq_iff
  let im : NSet → NSet := fun t => NSet.ofList (t.elems.map σ)
  have him : ∀ t, ImgSet σ t (im t) := fun t x => by rw [NSet.mem_ofList, h.mem, NSet.mem_elems]
  refine ⟨gs.map im, ?_, h.all (fun x => ?_), ?_, ?_, ?_⟩
  · intro t' ht'
    obtain ⟨t, ht, rfl⟩ := List.mem_map.1 ht'
    rw [(him t).card h]
    exact h1 t ht
  · have e1 : (∃ t ∈ gs.map im, σ x ∈ t) ↔ ∃ t ∈ gs, x ∈ t := by
      constructor
      · rintro ⟨t', ht', hx⟩
        obtain ⟨t, ht, rfl⟩ := List.mem_map.1 ht'
        exact ⟨t, ht, (him t x).1 hx⟩
      · rintro ⟨t, ht, hx⟩
        exact ⟨im t, List.mem_map.2 ⟨t, ht, rfl⟩, (him t x).2 hx⟩
    rw [e1, h2, hs x, ha x, hs.exists h]
    simp only [hE.graph.adj h]
  · intro t' ht'
    obtain ⟨t, ht, rfl⟩ := List.mem_map.1 ht'
    refine ((him t).forall h).2 (fun x hx => ((him t).forall h).2 (fun y hy k l hk hl => ?_))
    rw [dist_img h hR hS] at hk hl
    exact h3 t ht x hx y hy k l hk hl
  · rw [List.pairwise_map]
    refine h4.imp (fun {t u} htu => ((him t).forall h).2 (fun x hx => ((him u).forall h).2 (fun y hy k l hk hl => ?_)))
    rw [dist_img h hR hS] at hk hl
    exact htu x hx y hy k l hk hl
  · refine h5.img h hE.cfg ?_ hp hp1
    rw [List.forall₂_map_right_iff]
    exact List.forall₂_same.2 (fun t _ => him t)

omit h hE in
theorem IsoTrace.length_le {G : NMap Nat → Nat → List Nat → Prop} {agg0 : List Bool} {p0 : Pool} {cs : List (Nat × NSet)}
    {agg : List Bool} {p : Pool} (ht : IsoTrace E G agg0 p0 cs agg p) : agg0.length ≤ agg.length := by
  induction ht with
  | start => exact Nat.le_refl _
  | @turn cs agg agg2 p p1 p2 seed order s h1 h2 h3 h4 h5 ih =>
    by_contra hlt
    have h6 := h5 agg2.length
    rw [List.getElem?_eq_none (Nat.le_refl _)] at h6
    by_cases hs : agg2.length ∈ s
    · rw [if_pos hs] at h6; cases h6
    · rw [if_neg hs] at h6
      have := List.getElem?_eq_none_iff.1 h6.symm
      omega

theorem IsoTrace.img {G G' : NMap Nat → Nat → List Nat → Prop}
    (hG : ∀ d d' hi xs, ImgMap σ d d' → G d hi xs → G' d' hi (xs.map σ))
    {agg0 agg0' : List Bool} (ha0 : ImgFlags σ agg0 agg0') (hn : ∀ x, σ x < agg0.length ↔ x < agg0.length)
    {p0 p0' : Pool} (hp0 : ImgPool σ p0 p0')
    (hb : ∀ cs agg p, IsoTrace E G agg0 p0 cs agg p → (∃ s : Nat, agg[s]? = some false) → LevelSettled E.pool agg p)
    {cs : List (Nat × NSet)} {agg : List Bool} {p : Pool} (ht : IsoTrace E G agg0 p0 cs agg p)
    (hl : agg.length ≤ agg0.length) :
    ∃ cs' agg' p', List.Forall₂ (fun c c' => ImgSet σ c.2 c'.2) cs cs' ∧
      ImgFlags σ agg agg' ∧ ImgPool σ p p' ∧ IsoTrace E' G' agg0' p0' cs' agg' p' := by
  induction ht with
  | start => exact ⟨[], agg0', p0', .nil, ha0, hp0, .start⟩
  | @turn cs agg agg2 p p1 p2 seed order s h1 h2 h3 h4 h5 ih =>
    have l1 := h1.length_le
    have l2 := (IsoTrace.turn h1 h2 h3 h4 h5).length_le
    have l3 : agg.length ≤ agg2.length := by
      by_contra hlt
      have h6 := h5 agg2.length
      rw [List.getElem?_eq_none (Nat.le_refl _)] at h6
      by_cases hs : agg2.length ∈ s
      · rw [if_pos hs] at h6; cases h6
      · rw [if_neg hs] at h6
        have := List.getElem?_eq_none_iff.1 h6.symm
        omega
    obtain ⟨cs', agg', p', i1, i2, i4, i5⟩ := ih (by omega)
    obtain ⟨p1', hp1⟩ := ImgPool.some σ p1
    obtain ⟨p2', hp2⟩ := ImgPool.some σ p2
    obtain ⟨s', hs⟩ := ImgSet.some h s
    obtain ⟨agg2', ha2, _⟩ := ImgFlags.some (v := agg2) h (fun x => by rw [show agg2.length = agg0.length by omega]; exact hn x)
    have hq := SeedsQueued.img h hE i2 hs hp1 hp2 h4
    refine ⟨cs' ++ [(σ seed, s')], agg2', p2', ?_, ha2, hp2,
      .turn i5 (h2.img h hE.cfg i2 i4 hp1 (hb _ _ _ h1 ⟨seed, h2.free⟩)) (h3.img h hE hG i2 hs) hq (h.all (fun i => ?_))⟩
    · exact List.rel_append i1 (.cons hs .nil)
    · rw [ha2, h5]
      by_cases his : i ∈ s
      · rw [if_pos his, if_pos ((hs i).2 his)]
      · rw [if_neg his, if_neg (fun hc => his ((hs i).1 hc)), i2]

end run

theorem IsoTrace.bounds {E : IsoEnv W F} {G : NMap Nat → Nat → List Nat → Prop} (hk : E.pool.kind = .boundary) {agg0 : List Bool} {p0 : Pool}
    (hb : TopBounds E.pool agg0 p0) {cs : List (Nat × NSet)} {agg : List Bool} {p : Pool} (ht : IsoTrace E G agg0 p0 cs agg p) :
    TopBounds E.pool agg p := by
  induction ht with
  | start => exact hb
  | @turn cs agg agg2 p p1 p2 seed order s h1 h2 h3 h4 h5 ih =>
    obtain ⟨gs, _, _, _, _, hj⟩ := h4
    have hb2 := hj.bounds hk (h2.bounds hk ih)
    intro i b hi ha
    rw [h5] at ha
    by_cases his : i ∈ s
    · rw [if_pos his] at ha; cases ha
    · rw [if_neg his] at ha
      exact hb2 i b hi ha

/-! ### The map and its correction -/

/-- the map `f'` is `f` after renumbering -/
def ImgVec (σ : Nat → Nat) (f f' : List Nat) : Prop := ∀ i : Nat, f'[σ i]? = f[i]?

theorem Numbers.img (h : Renumbering σ τ) {n : Nat} (hn : ∀ x, σ x < n ↔ x < n) {cs cs' : List NSet}
    (hc : List.Forall₂ (ImgSet σ) cs cs') {f : List Nat} (hf : Numbers n cs f) :
    ∃ f', ImgVec σ f f' ∧ Numbers n cs' f' := by
  have key : ∀ (k i : Nat), (∃ c, cs'[k]? = some c ∧ σ i ∈ c) ↔ ∃ c, cs[k]? = some c ∧ i ∈ c := by
    clear hf
    induction hc with
    | nil => simp
    | @cons c c' cs cs' h1 _ ih =>
      intro k i
      cases k with
      | zero => simpa using h1 i
      | succ k => simpa using ih k i
  have hv : ImgVec σ f ((List.range n).map (fun x => (f[τ x]?).getD 0)) := by
    intro x
    rw [List.getElem?_map]
    by_cases hx : x < n
    · rw [List.getElem?_range ((hn x).2 hx), Option.map_some, h.back, List.getElem?_eq_getElem (by rw [hf.1]; exact hx)]; rfl
    · rw [List.getElem?_eq_none (by rw [List.length_range]; exact Nat.le_of_not_lt (fun hc => hx ((hn x).1 hc))),
        List.getElem?_eq_none (by rw [hf.1]; omega)]; rfl
  exact ⟨_, hv, by simp, h.all (fun i k => by rw [hv, hf.2, key])⟩

section correction
variable {g g' : Graph W} (h : Renumbering σ τ) (hg : ImgGraph σ g g') {f f' : List Nat} (hf : ImgVec σ f f')
  (hl : f'.length = f.length)
include h

theorem ImgVec.unique {f'' : List Nat} (hf : ImgVec σ f f') (hf' : ImgVec σ f f'') : f' = f'' := by
  apply List.ext_getElem?
  exact h.all (fun i => by rw [hf, hf'])

include hf

theorem ImgVec.mem (k : Nat) : k ∈ f' ↔ k ∈ f := by
  rw [List.mem_iff_getElem?, List.mem_iff_getElem?, h.ex]
  exact exists_congr (fun i => by rw [hf i])

include hl

theorem ImgVec.fcs (k : Nat) : ImgSet σ (fcsOf f k) (fcsOf f' k) := by
  intro x
  unfold fcsOf
  rw [NSet.mem_ofList, NSet.mem_ofList, List.mem_filter, List.mem_filter, List.mem_range, List.mem_range, hl, range_img hl hf, hf]

theorem ImgVec.count (k : Nat) : f'.count k = f.count k := by
  have key : ∀ v : List Nat, v.count k = (fcsOf v k).card := by
    intro v
    rw [count_eq_filter]
    unfold fcsOf
    rw [NSet.card_ofList (List.Nodup.filter _ List.nodup_range)]
  rw [key, key, (ImgVec.fcs h hf hl k).card h]

include hg

theorem ImgVec.facesTo (x k : Nat) : facesTo g'.rowPtr g'.colInd f' (σ x) k = facesTo g.rowPtr g.colInd f x k :=
  hg.countP h (fun y => by rw [hf])

theorem ImgVec.receiver (m x r : Nat) : Receiver g'.rowPtr g'.colInd f' m (σ x) r ↔ Receiver g.rowPtr g.colInd f m x r := by
  unfold Receiver
  rw [hf, h.ex]
  simp only [hg.adj h, hf _]

theorem ImgVec.gains (x r : Nat) : Gains g'.rowPtr g'.colInd f' (σ x) r ↔ Gains g.rowPtr g.colInd f x r := by
  unfold Gains
  have h1 := ImgVec.fcs h hf hl r
  simp only [hg.compactness h h1, hg.compactness h (h1.insert h x)]

theorem ImgVec.best (m x r : Nat) (hb : BestReceiver g.rowPtr g.colInd f m x r) :
    BestReceiver g'.rowPtr g'.colInd f' m (σ x) r := by
  obtain ⟨h1, h2⟩ := hb
  refine ⟨(ImgVec.receiver h hg hf hl m x r).2 h1, fun s hs => ?_⟩
  have := h2 s ((ImgVec.receiver h hg hf hl m x s).1 hs)
  unfold Closer at *
  rw [ImgVec.gains h hg hf hl, ImgVec.gains h hg hf hl, ImgVec.facesTo h hg hf hl, ImgVec.facesTo h hg hf hl,
    ImgVec.count h hf hl, ImgVec.count h hf hl]
  exact this

omit hf hl in
theorem Merges.img {m : Nat} {ks f f1 : List Nat} (hm : Merges g.rowPtr g.colInd m ks f f1) :
    ∀ {f' : List Nat}, ImgVec σ f f' → f'.length = f.length →
      ∃ f1', ImgVec σ f1 f1' ∧ f1'.length = f1.length ∧ Merges g'.rowPtr g'.colInd m ks f' f1' := by
  induction hm with
  | done => exact fun {f'} hf hl => ⟨f', hf, hl, .done⟩
  | large h1 _ ih =>
    intro f' hf hl
    obtain ⟨f1', i1, i2, i3⟩ := ih hf hl
    exact ⟨f1', i1, i2, .large (by rw [ImgVec.count h hf hl]; exact h1) i3⟩
  | @alone k ks x f f1 h1 h2 h3 _ ih =>
    intro f' hf hl
    obtain ⟨f1', i1, i2, i3⟩ := ih hf hl
    exact ⟨f1', i1, i2, .alone (x := σ x) (by rw [ImgVec.count h hf hl]; exact h1) (by rw [hf]; exact h2)
      (fun r hr => h3 r ((ImgVec.receiver h hg hf hl m x r).1 hr)) i3⟩
  | @merged k ks x r f f1 h1 h2 h3 _ ih =>
    intro f' hf hl
    have hset : ImgVec σ (f.set x r) (f'.set (σ x) r) := by
      intro i
      rw [List.getElem?_set, List.getElem?_set, hf, hl]
      simp only [h.inj.eq_iff, range_img hl hf]
    obtain ⟨f1', i1, i2, i3⟩ := ih hset (by rw [List.length_set, List.length_set, hl])
    exact ⟨f1', i1, i2, .merged (x := σ x) (by rw [ImgVec.count h hf hl]; exact h1) (by rw [hf]; exact h2)
      (ImgVec.best h hg hf hl m x r h3) i3⟩

theorem CorrectionOf.img {m : Nat} {f1 : List Nat} (hc : CorrectionOf g.rowPtr g.colInd m f f1) :
    ∃ f1', ImgVec σ f1 f1' ∧ CorrectionOf g'.rowPtr g'.colInd m f' f1' := by
  obtain ⟨N, f2, h1, h2, rfl⟩ := hc
  obtain ⟨f2', i1, i2, i3⟩ := Merges.img h hg h2 hf hl
  refine ⟨renumbered f2', ?_, N, f2', fun k hk => h1 k ((ImgVec.mem h hf k).1 hk), ?_, rfl⟩
  · intro i
    unfold renumbered
    rw [List.getElem?_map, List.getElem?_map, i1]
    congr 1
    funext k
    congr 1
    exact List.filter_congr (fun j _ => by simp only [ImgVec.mem h i1])
  · have : singlesOf f' m N = singlesOf f m N := by
      unfold singlesOf
      exact List.filter_congr (fun k _ => by rw [ImgVec.count h hf hl])
    rw [this]
    exact i3

end correction

end CoMMA
