import Verif.Model.TopLevel
import Verif.Lemmas.Search
import Verif.Lemmas.BuildLines
import Verif.Lemmas.Container
/-! # Which failures can come out of the phases, whatever the input

Nothing here supposes a valid mesh: the functions of the model fail by undefined behaviour, by a
failing assertion, by `std::bad_optional_access` or by `std::out_of_range` only; in particular their
loops stop. -/

set_option linter.unusedSectionVars false
set_option linter.unusedVariables false
set_option linter.unreachableTactic false
set_option linter.unusedTactic false

namespace CoMMA

/-- failures other than an exception for a refused argument and an endless loop -/
def Plain (e : Err) : Prop := e = .ub ∨ e = .assertion ∨ e = .badOptional ∨ e = .outOfRange

/-- the call can only fail in these ways -/
def Only {α : Type} (m : M α) : Prop := ∀ e, m = .error e → Plain e

theorem Only.ok {α : Type} {a : α} : Only (.ok a : M α) := fun _ h => by cases h
theorem Only.pure {α : Type} {a : α} : Only (Pure.pure a : M α) := fun _ h => by cases h
theorem Only.ub {α : Type} : Only (.error .ub : M α) := fun _ h => by cases h; exact Or.inl rfl
theorem Only.range {α : Type} : Only (.error .outOfRange : M α) := fun _ h => by
  cases h; exact Or.inr (Or.inr (Or.inr rfl))

theorem Only.bind' {α β : Type} {m : M α} {f : α → M β} (h : Only m) (hf : ∀ a, m = .ok a → Only (f a)) :
    Only (m >>= f) := by
  cases m with
  | ok a => exact hf a rfl
  | error e => exact fun e' h' => by cases h'; exact h e rfl

theorem Only.bind {α β : Type} {m : M α} {f : α → M β} (h : Only m) (hf : ∀ a, Only (f a)) :
    Only (m >>= f) := h.bind' (fun a _ => hf a)

theorem Only.foldlM {α β : Type} {f : β → α → M β} (hf : ∀ b a, Only (f b a)) (l : List α) :
    ∀ b, Only (l.foldlM f b) := by
  induction l with
  | nil => exact fun b => Only.pure
  | cons x r ih => exact fun b => by rw [List.foldlM_cons]; exact (hf b x).bind ih

theorem Only.mapM {α β : Type} {f : α → M β} (hf : ∀ a, Only (f a)) (l : List α) : Only (l.mapM f) := by
  induction l with
  | nil => exact Only.pure
  | cons x r ih =>
    rw [List.mapM_cons]
    exact (hf x).bind (fun y => ih.bind (fun ys => Only.pure))

theorem foldlM_ok_prefix {α β : Type} {f : β → α → M β} {l : List α} {b r : β} {I : List α → β → Prop}
    (h : l.foldlM f b = .ok r) (h0 : I [] b)
    (hs : ∀ pre a post b b', l = pre ++ a :: post → I pre b → f b a = .ok b' → I (pre ++ [a]) b') : I l r := by
  suffices ∀ post pre b, l = pre ++ post → I pre b → post.foldlM f b = .ok r → I l r from
    this l [] b rfl h0 h
  intro post
  induction post with
  | nil =>
    intro pre b hl hI hr
    cases hr
    rw [hl, List.append_nil]; exact hI
  | cons x t ih =>
    intro pre b hl hI hr
    rw [List.foldlM_cons, bind_ok_iff] at hr
    obtain ⟨b', h1, h2⟩ := hr
    exact ih (pre ++ [x]) b' (by rw [hl]; simp) (hs pre x t b b' hl hI h1) h2

theorem foldlM_ok {α β : Type} {f : β → α → M β} {l : List α} {b r : β} {I : β → Prop}
    (h : l.foldlM f b = .ok r) (h0 : I b) (hs : ∀ a ∈ l, ∀ b b', I b → f b a = .ok b' → I b') : I r :=
  foldlM_ok_prefix (I := fun _ => I) h h0 (fun pre a post b b' hl => hs a (by simp [hl]) b b')

/-- one step of the analysis of a body -/
macro "only_step" : tactic => `(tactic| with_reducible first
  | exact Only.ok | exact Only.pure | exact Only.ub | exact Only.range | assumption
  | refine Only.bind ?_ (fun _ => ?_)
  | refine Only.foldlM (fun _ _ => ?_) _ _
  | refine Only.mapM (fun _ => ?_) _
  | split
  | dsimp only)

theorem rd_only {α : Type} (v : List α) (i : Nat) : Only (rd v i) := by
  unfold rd
  repeat' only_step

theorem wr_only {α : Type} (v : List α) (i : Nat) (a : α) : Only (wr v i a) := by
  unfold wr
  repeat' only_step

theorem assertM_only (b : Bool) : Only (assertM b) := by
  unfold assertM
  split
  · exact Only.ok
  · exact fun _ h => by cases h; exact Or.inr (Or.inl rfl)

theorem valueM_only {α : Type} (o : Option α) : Only (valueM o) := by
  unfold valueM
  split
  · exact Only.ok
  · exact fun _ h => by cases h; exact Or.inr (Or.inr (Or.inl rfl))

theorem NMap_atBang_only {V : Type} (m : NMap V) (k : Nat) : Only (m.at! k) := by
  unfold NMap.at!
  repeat' only_step

/-- the aspect-ratio computer fails in these ways only -/
structure QuietAR {W F : Type} (ar : ARComp W F) : Prop where
  init : ∀ i, Only (ar.init i)
  compute : ∀ i f s, Only (ar.compute i f s)

variable {W F : Type} [Num W]

/-! ## Container -/

theorem Cont_markAll_only (c : Cont) (s : NSet) : Only (Cont.markAll c s) := by
  unfold Cont.markAll
  repeat' first | only_step | apply rd_only | apply wr_only | apply assertM_only

theorem Cont_assignAll_only (c : Cont) (s : NSet) : Only (Cont.assignAll c s) := by
  unfold Cont.assignAll
  repeat' first | only_step | apply rd_only | apply wr_only | apply assertM_only

theorem Cont_create_only (c : Cont) (s : NSet) (compact : Nat) (aniso delayed : Bool) : Only (Cont.create c s compact aniso delayed) := by
  unfold Cont.create
  repeat' first | only_step | apply assertM_only | apply Cont_markAll_only | apply Cont_assignAll_only

theorem Cont_createDelayed_only (c : Cont) : Only (Cont.createDelayed c) := by
  unfold Cont.createDelayed
  repeat' first | only_step | apply Cont_create_only

/-! ## Graph -/

theorem slice_only {α : Type} (v : List α) (b e : Nat) : Only (slice v b e) := by
  unfold slice
  repeat' first | only_step

theorem rowM_only {α : Type} (rowPtr : List Nat) (v : List α) (c : Nat) : Only (rowM rowPtr v c) := by
  unfold rowM
  repeat' first | only_step | apply rd_only | apply slice_only

theorem Graph_neighs_only (g : Graph W) (c : Nat) : Only (Graph.neighs g c) := by
  unfold Graph.neighs
  repeat' first | only_step | apply rowM_only

theorem Graph_weights_only (g : Graph W) (c : Nat) : Only (Graph.weights g c) := by
  unfold Graph.weights
  repeat' first | only_step | apply rowM_only

theorem Graph_nbNeighs_only (g : Graph W) (c : Nat) : Only (Graph.nbNeighs g c) := by
  unfold Graph.nbNeighs
  repeat' first | only_step | apply rd_only

theorem Graph_fcCompactness_only (g : Graph W) (s : NSet) : Only (Graph.fcCompactness g s) := by
  unfold Graph.fcCompactness
  repeat' first | only_step | apply Graph_neighs_only

theorem Graph_minCompactness_only (g : Graph W) (s : NSet) : Only (Graph.minCompactness g s) := by
  unfold Graph.minCompactness
  repeat' first | only_step | apply Graph_fcCompactness_only

theorem Graph_neighbourhoodOf_only (g : Graph W) (h : Hash) (seeds : NSet) (agg : List Bool) : Only (Graph.neighbourhoodOf g h seeds agg) := by
  unfold Graph.neighbourhoodOf
  repeat' first | only_step | apply rd_only | apply Graph_neighs_only

/-! ## Search -/

theorem nbhVisit_only (d prev : NMap Nat) (agg : List Bool) (iOrder : Nat) (cur : NMap Nat) (x : Nat) : Only (nbhVisit d prev agg iOrder cur x) := by
  unfold nbhVisit
  repeat' first | only_step | apply rd_only

theorem Graph_nbhLayer_only (g : Graph W) (h : Hash) (d prev : NMap Nat) (agg : List Bool) (iOrder : Nat) : Only (Graph.nbhLayer g h d prev agg iOrder) := by
  unfold Graph.nbhLayer
  repeat' first | only_step | apply Graph_neighs_only | apply nbhVisit_only

theorem rowM_lt {α : Type} {rowPtr : List Nat} {v : List α} {c : Nat} {r : List α} (h : rowM rowPtr v c = .ok r) :
    c + 1 < rowPtr.length := by
  unfold rowM at h
  simp only [bind_ok_iff, rd_ok] at h
  obtain ⟨_, _, _, h2, _⟩ := h
  exact (List.getElem?_eq_some_iff.1 h2).1

theorem nbhVisit_keys {d prev cur cur' : NMap Nat} {agg : List Bool} {iOrder x : Nat}
    (hc : ∀ k ∈ cur.keys, k < agg.length ∧ ¬ k ∈ d.keys) (h : nbhVisit d prev agg iOrder cur x = .ok cur') :
    ∀ k ∈ cur'.keys, k < agg.length ∧ ¬ k ∈ d.keys := by
  unfold nbhVisit at h
  split at h
  · cases h; exact hc
  · rename_i hx
    simp only [bind_ok_iff, rd_ok] at h
    obtain ⟨a, ha, h⟩ := h
    cases h
    have hx' : x < agg.length ∧ ¬ x ∈ d.keys :=
      ⟨(List.getElem?_eq_some_iff.1 ha).1, fun hm => hx (NMap.has_iff.2 hm)⟩
    have hi : ∀ k ∈ (cur.insert x iOrder).keys, k < agg.length ∧ ¬ k ∈ d.keys := by
      intro k hk
      rcases NMap.mem_keys_insert.1 hk with rfl | hk
      · exact hx'
      · exact hc k hk
    unfold nbhAdd
    repeat' split
    all_goals first | exact hc | exact hi

theorem nbhLayer_keys {g : Graph W} {h : Hash} {d prev cur : NMap Nat} {agg : List Bool} {iOrder : Nat}
    (hl : g.nbhLayer h d prev agg iOrder = .ok cur) :
    (∀ k ∈ cur.keys, k < agg.length ∧ ¬ k ∈ d.keys) ∧ ∀ k ∈ prev.keys, k + 1 < g.rowPtr.length := by
  unfold Graph.nbhLayer at hl
  have := foldlM_ok_prefix (I := fun pre (c : NMap Nat) =>
    (∀ k ∈ c.keys, k < agg.length ∧ ¬ k ∈ d.keys) ∧ ∀ k ∈ pre, k + 1 < g.rowPtr.length) hl
    ⟨by intro k hk; simp [NMap.empty, NMap.keys] at hk, by simp⟩ (by
      intro pre a post b b' _ hI hb
      obtain ⟨row, h1, h2⟩ := bind_ok_iff.1 hb
      refine ⟨foldlM_ok (I := fun c : NMap Nat => ∀ k ∈ c.keys, k < agg.length ∧ ¬ k ∈ d.keys) h2 hI.1
        (fun x _ c c' hc hv => nbhVisit_keys hc hv), ?_⟩
      intro k hk
      rcases List.mem_append.1 hk with hk | hk
      · exact hI.2 k hk
      · rw [List.mem_singleton] at hk
        rw [hk]; exact rowM_lt h1)
  exact ⟨this.1, fun k hk => this.2 k ((h.perm 3 _).mem_iff.2 hk)⟩

/-- enough fuel whatever the graph: every turn adds a cell to the dictionary -/
theorem Graph_nbhLoop_only (g : Graph W) (h : Hash) {agg : List Bool} (ha : agg.length ≤ g.nbC)
    (hr : g.rowPtr.length ≤ g.nbC + 1) (nbOrder maxCard fuel : Nat) :
    ∀ s : NbhState, (∀ k ∈ s.d.keys, k < g.nbC) → (∀ k ∈ s.prev.keys, ¬ k ∈ s.d.keys) → 0 < s.prev.size →
      g.nbC + 1 ≤ s.d.size + fuel → Only (g.nbhLoop h agg nbOrder maxCard fuel s) := by
  induction fuel with
  | zero =>
    intro s h1 _ _ h2
    exact absurd (NMap.size_le_of_keys_lt h1) (by omega)
  | succ fuel ih =>
    intro s h1 hd h0 h2
    unfold Graph.nbhLoop
    split
    · refine Only.bind' (Graph_nbhLayer_only _ _ _ _ _ _) (fun cur hc => ?_)
      obtain ⟨k1, k2⟩ := nbhLayer_keys hc
      split
      · exact Only.pure
      · rename_i hne
        have hs := NMap.size_merge hd
        refine ih _ ?_ (fun k hk => (k1 k hk).2) ?_ ?_
        · intro k hk
          rw [NMap.mem_keys] at hk
          obtain ⟨v, hv⟩ := hk
          rw [NMap.find?_merge] at hv
          by_cases hp : k ∈ s.prev.keys
          · have := k2 k hp; omega
          · refine h1 k (NMap.mem_keys.2 ⟨v, ?_⟩)
            have : s.prev.find? k = none := by
              cases hf : s.prev.find? k with
              | none => rfl
              | some w => exact absurd (NMap.mem_keys.2 ⟨w, hf⟩) hp
            simpa [this] using hv
        · show 0 < cur.entries.length
          exact List.length_pos_iff.2 (fun he => hne (by simp [he]))
        · show g.nbC + 1 ≤ (s.d.merge s.prev).size + fuel
          omega
    · exact Only.pure

theorem Graph_neighbourhood_only (g : Graph W) (h : Hash) {seeds : NSet} (hs : 0 < seeds.card) (nbOrder maxCard : Nat)
    {agg : List Bool} (ha : agg.length ≤ g.nbC) (hr : g.rowPtr.length ≤ g.nbC + 1) :
    Only (Graph.neighbourhood g h seeds nbOrder maxCard agg) := by
  unfold Graph.neighbourhood
  refine (assertM_only _).bind (fun _ => Only.bind ?_ (fun _ => ?_))
  · refine Graph_nbhLoop_only g h ha hr _ _ _ _ ?_ ?_ ?_ ?_
    · intro k hk; simp [NMap.empty, NMap.keys] at hk
    · intro k _ hk; simp [NMap.empty, NMap.keys] at hk
    · rw [Nat.pos_iff_ne_zero]
      intro h0
      rw [NMap.size_eq_zero_iff] at h0
      obtain ⟨x, hx⟩ := List.exists_mem_of_length_pos hs
      have := h0 x
      rw [NMap.find?_foldl_const] at this
      simp [hx] at this
    · show g.nbC + 1 ≤ _ + (g.nbC + 1); omega
  · repeat' first | only_step

/-! ## SeedsPool -/

theorem fullInit_only (c : PoolCfg W) (maxBnd : Nat) (q : List Nat) : Only (fullInit c maxBnd q) := by
  unfold fullInit
  repeat' first | only_step | apply rd_only

theorem onePointInit_only (c : PoolCfg W) (maxBnd : Nat) (q : List Nat) : Only (onePointInit c maxBnd q) := by
  unfold onePointInit
  repeat' first | only_step | apply rd_only

theorem spoil_only (agg : List Bool) (l : List Nat) : Only (spoil agg l) := by
  induction l with
  | nil => exact Only.pure
  | cons x r ih =>
    unfold spoil
    repeat' first | only_step | apply rd_only

theorem buildQueue_only (c : PoolCfg W) (agg : List Bool) (target : Nat) (p : Pool) : Only (buildQueue c agg target p) := by
  unfold buildQueue
  repeat' first | only_step | apply rd_only | apply wr_only

theorem highestAux_only (nBnd : List Nat) (agg : List Bool) (expected : Nat) (l : List Nat) :
    ∀ o, Only (highestAux nBnd agg expected l o) := by
  induction l with
  | nil => exact fun o => Only.pure
  | cons x r ih =>
    intro o
    unfold highestAux
    repeat' first | only_step | apply ih | apply rd_only

theorem highest_only (nBnd : List Nat) (agg : List Bool) (expected : Nat) : Only (highest nBnd agg expected) := by
  unfold highest
  repeat' first | only_step | apply highestAux_only

theorem Pool_isEmpty_only (p : Pool) : Only (Pool.isEmpty p) := by
  unfold Pool.isEmpty
  repeat' first | only_step | apply rd_only

theorem maxElem_only (v : List Nat) : Only (maxElem v) := by
  unfold maxElem
  repeat' first | only_step

theorem runInit_only (c : PoolCfg W) (t : Nat) (q : List Nat) : Only (runInit c t q) := by
  unfold runInit
  repeat' first | only_step | apply fullInit_only | apply onePointInit_only

theorem Pool_initAt_only (c : PoolCfg W) (p : Pool) (t : Nat) : Only (Pool.initAt c p t) := by
  unfold Pool.initAt
  repeat' first | only_step | apply rd_only | apply wr_only | apply runInit_only

theorem Pool_initialize_only (c : PoolCfg W) (p : Pool) : Only (Pool.initialize c p) := by
  unfold Pool.initialize
  repeat' first | only_step | apply maxElem_only | apply maxElem_only | apply Pool_initAt_only

theorem chooseFallback_only (c : PoolCfg W) (agg : List Bool) (p : Pool) (t : Nat) : Only (chooseFallback c agg p t) := by
  unfold chooseFallback
  repeat' first | only_step | apply rd_only | apply wr_only | apply spoil_only | apply buildQueue_only | apply highest_only

theorem spoilDown_only (agg : List Bool) (t : Nat) : ∀ p, Only (spoilDown agg t p) := by
  induction t with
  | zero =>
    intro p
    unfold spoilDown
    repeat' first | only_step | apply rd_only | apply wr_only | apply spoil_only
  | succ t ih =>
    intro p
    unfold spoilDown
    repeat' first | only_step | apply ih | apply rd_only | apply wr_only | apply spoil_only

theorem Pool_choose_only (c : PoolCfg W) (agg : List Bool) (p : Pool) : Only (Pool.choose c agg p) := by
  unfold Pool.choose
  repeat' first | only_step | apply rd_only | apply wr_only | apply Graph_neighbourhood_only | apply spoil_only | apply chooseFallback_only | apply spoilDown_only

theorem pushTo_only (qs : List (List Nat)) (lvl : Nat) (l : List Nat) : Only (pushTo qs lvl l) := by
  unfold pushTo
  repeat' first | only_step | apply rd_only | apply wr_only

theorem Pool_update_only (c : PoolCfg W) (seeds : List Nat) (p : Pool) : Only (Pool.update c seeds p) := by
  unfold Pool.update
  repeat' first | only_step | apply rd_only | apply Graph_neighbourhood_only | apply Pool_isEmpty_only | apply pushTo_only

theorem groupSeeds_only (c : PoolCfg W) (h : Hash) (seeds : NSet) : Only (groupSeeds c h seeds) := by
  unfold groupSeeds
  repeat' first | only_step | apply rd_only

theorem Pool_orderUpdate_only (c : PoolCfg W) (h : Hash) (seeds : NSet) (p : Pool) : Only (Pool.orderUpdate c h seeds p) := by
  unfold Pool.orderUpdate
  repeat' first | only_step | apply Graph_neighbourhood_only | apply Pool_isEmpty_only | apply pushTo_only | apply groupSeeds_only

theorem Pool_needInit_only (c : PoolCfg W) (agg : List Bool) (p : Pool) : Only (Pool.needInit c agg p) := by
  unfold Pool.needInit
  repeat' first | only_step | apply Graph_neighbourhood_only | apply highest_only | apply Pool_isEmpty_only

/-! ## Neighbourhood -/

theorem pickRow_only (weights : List W) (p : Nat → Bool) (row : List Nat) : Only (pickRow weights p row) := by
  unfold pickRow
  repeat' first | only_step | apply rd_only | apply Graph_weights_only

theorem Nbh_updateExt_only (nb : Nbh W) (weights : List W) (newFc : Nat) (row : List Nat) : Only (Nbh.updateExt nb weights newFc row) := by
  unfold Nbh.updateExt
  repeat' first | only_step | apply Graph_weights_only | apply pickRow_only

theorem pfSearch_only (qs : List (List (Nat × W))) (fuel : Nat) :
    ∀ front back, back + 1 ≤ front + fuel → Only (pfSearch qs fuel front back) := by
  induction fuel with
  | zero =>
    intro front back h
    unfold pfSearch
    repeat' first | only_step | apply rd_only | omega
  | succ fuel ih =>
    intro front back h
    unfold pfSearch
    repeat' first | only_step | apply rd_only | (apply ih; omega)

theorem Nbh_updatePF_only (nb : Nbh W) (weights : List W) (newFc : Nat) (row : List Nat) : Only (Nbh.updatePF nb weights newFc row) := by
  unfold Nbh.updatePF
  repeat' first | only_step | apply Graph_weights_only | apply pickRow_only | (apply pfSearch_only; simp only [List.length_cons]; omega)

theorem Nbh_update_only (nb : Nbh W) (weights : List W) (newFc : Nat) (row : List Nat) : Only (Nbh.update nb weights newFc row) := by
  unfold Nbh.update
  repeat' first | only_step | apply Graph_weights_only | apply Nbh_updateExt_only | apply Nbh_updatePF_only

/-! ## Growth -/

theorem bestStep_only (d : NMap Nat) (s : BestSt W F) (i faces out : Nat) (ar : W) (f : F) : Only (bestStep d s i faces out ar f) := by
  unfold bestStep
  repeat' first | only_step | apply NMap_atBang_only

theorem bicStep_only {E : IsoEnv W F} (hE : QuietAR E.ar) (d : NMap Nat) (feats : F) (cc : NSet) (s : BestSt W F) (i : Nat) : Only (bicStep E d feats cc s i) := by
  unfold bicStep
  repeat' first | only_step | apply bestStep_only | apply hE.init | apply hE.compute

theorem bicBest_only {E : IsoEnv W F} (hE : QuietAR E.ar) (cands : List Nat) (d : NMap Nat) (feats : F) (cc : NSet) : Only (bicBest E cands d feats cc) := by
  unfold bicBest
  repeat' first | only_step | apply rd_only | apply bicStep_only hE | apply hE.init | apply hE.compute

theorem iterBest_only {E : IsoEnv W F} (hE : QuietAR E.ar) (d : NMap Nat) (k : Nat) :
    ∀ nb feats cc, Only (iterBest E d k nb feats cc) := by
  induction k with
  | zero =>
    intro nb feats cc
    unfold iterBest
    repeat' first | only_step | apply hE.compute | apply Graph_neighs_only | apply Nbh_update_only | apply bestStep_only
  | succ k ih =>
    intro nb feats cc
    unfold iterBest
    repeat' first | only_step | apply ih | apply hE.compute | apply Graph_neighs_only | apply Nbh_update_only | apply bestStep_only

theorem best_only {E : IsoEnv W F} (hE : QuietAR E.ar) (fcIter : Nat) (nb : Nbh W) (d : NMap Nat) (feats : F) (cc : NSet) : Only (best E fcIter nb d feats cc) := by
  unfold best
  repeat' first | only_step | apply bicBest_only hE | apply iterBest_only hE | apply hE.init | apply hE.compute

theorem growStep_only {E : IsoEnv W F} (hE : QuietAR E.ar) (maxInd : Nat) (s : GrowSt W F) : Only (growStep E maxInd s) := by
  unfold growStep
  repeat' first | only_step | apply rd_only | apply Graph_neighs_only | apply Graph_nbNeighs_only | apply Pool_update_only | apply Nbh_update_only | apply best_only hE | apply hE.init | apply hE.compute

theorem growStep_size {E : IsoEnv W F} {maxInd : Nat} {s s' : GrowSt W F} (h : growStep E maxInd s = .ok s') :
    s'.size = s.size + 1 ∧ (0 < s.arg → 0 < s'.arg) := by
  unfold growStep at h
  simp only [bind_ok_iff] at h
  obtain ⟨row, _, nb, _, r, _, nn, _, nbnd, _, row', _, h⟩ := h
  cases h
  constructor
  · simp only [growStore]; split <;> rfl
  · intro h0
    simp only [growStore, growChoose]
    repeat' split
    all_goals first | exact h0 | exact Nat.succ_pos _

theorem growLoop_only {E : IsoEnv W F} (hE : QuietAR E.ar) (maxInd fuel : Nat) :
    ∀ s : GrowSt W F, maxInd ≤ s.size + fuel → Only (growLoop E maxInd fuel s) := by
  induction fuel with
  | zero =>
    intro s h
    unfold growLoop
    repeat' first | only_step | omega
  | succ fuel ih =>
    intro s h
    unfold growLoop
    split
    · refine Only.bind' (growStep_only hE _ _) (fun s' hs => ih s' ?_)
      rw [(growStep_size hs).1]; omega
    · exact Only.pure

theorem growLoop_arg {E : IsoEnv W F} {maxInd fuel : Nat} :
    ∀ {s s' : GrowSt W F}, 0 < s.arg → growLoop E maxInd fuel s = .ok s' → 0 < s'.arg := by
  induction fuel with
  | zero =>
    intro s s' h0 h
    unfold growLoop at h
    split at h
    · cases h
    · cases h; exact h0
  | succ fuel ih =>
    intro s s' h0 h
    unfold growLoop at h
    split at h
    · obtain ⟨s1, h1, h2⟩ := bind_ok_iff.1 h
      exact ih ((growStep_size h1).2 h0) h2
    · cases h; exact h0

theorem pushNeighs_only {E : IsoEnv W F} (hE : QuietAR E.ar) (groups : NMap NSet × NSet) (p : Pool) : Only (pushNeighs E groups p) := by
  unfold pushNeighs
  repeat' first | only_step | apply Pool_orderUpdate_only | apply hE.init | apply hE.compute

theorem growInit_only {E : IsoEnv W F} (hE : QuietAR E.ar) (seed : Nat) (d : NMap Nat) : Only (growInit E seed d) := by
  unfold growInit
  repeat' first | only_step | apply rd_only | apply Graph_nbNeighs_only | apply Feats_init_only | apply hE.init | apply hE.compute

theorem grow_only {E : IsoEnv W F} (hE : QuietAR E.ar) (agg : List Bool) (p : Pool) (seed : Nat) (d : NMap Nat) :
    Only (grow E agg p seed d) := by
  unfold grow
  repeat' first | only_step | (apply growLoop_only hE; exact Nat.le_add_left _ _) | apply assertM_only | apply Graph_neighbourhoodOf_only | apply pushNeighs_only hE | apply growInit_only hE

theorem grow_card {E : IsoEnv W F} (hm : 0 < E.minCard) {agg : List Bool} {p : Pool} {seed : Nat} {d : NMap Nat}
    {r : NSet × Nat × Pool} (h : grow E agg p seed d = .ok r) : 0 < r.1.card := by
  unfold grow at h
  simp only [bind_ok_iff] at h
  obtain ⟨s0, h0, s, hs, _, _, _, _, _, ha, hr⟩ := h
  have h1 : 0 < s0.arg := by
    unfold growInit at h0
    simp only [bind_ok_iff] at h0
    obtain ⟨_, _, _, _, _, _, h0⟩ := h0
    cases h0; exact hm
  have h2 := growLoop_arg h1 hs
  cases hr
  unfold assertM at ha
  split at ha
  · rename_i hc
    rw [decide_eq_true_eq] at hc
    show 0 < NSet.card _
    rw [← hc]; exact h2
  · cases ha

theorem chooseOptimal_only {E : IsoEnv W F} (hE : QuietAR E.ar) {agg : List Bool} (ha : agg.length ≤ E.g.nbC)
    (hr : E.g.rowPtr.length ≤ E.g.nbC + 1) (p : Pool) (seed : Nat) : Only (chooseOptimal E agg p seed) := by
  unfold chooseOptimal
  repeat' first | only_step | apply assertM_only | apply Graph_minCompactness_only | exact Graph_neighbourhood_only _ _ (List.length_pos_of_mem (NSet.mem_single.2 rfl)) _ _ ha hr | apply grow_only hE

theorem chooseOptimal_card {E : IsoEnv W F} (hm : 0 < E.minCard) {agg : List Bool} {p : Pool} {seed : Nat}
    {r : NSet × Nat × Pool} (h : chooseOptimal E agg p seed = .ok r) : 0 < r.1.card := by
  unfold chooseOptimal at h
  simp only [bind_ok_iff] at h
  obtain ⟨_, _, n, _, h⟩ := h
  split at h
  · cases h; exact Nat.one_pos
  · split at h
    · simp only [bind_ok_iff] at h
      obtain ⟨k, _, h⟩ := h
      cases h
      have : seed ∈ (NSet.single seed).insertMany n.2.keys := NSet.mem_insertMany.2 (Or.inr (NSet.mem_single.2 rfl))
      exact List.length_pos_of_mem this
    · exact grow_card hm h

/-! ## AspectRatio -/

theorem sqDist_only (a b : List W) : Only (sqDist a b) := by
  unfold sqDist
  repeat' first | only_step | apply rd_only

theorem Graph_totalFaces_only (g : Graph W) (i : Nat) : Only (Graph.totalFaces g i) := by
  unfold Graph.totalFaces
  repeat' first | only_step | apply rd_only | apply Graph_nbNeighs_only

theorem Graph_boundaryWeight_only (g : Graph W) (i : Nat) : Only (Graph.boundaryWeight g i) := by
  unfold Graph.boundaryWeight
  repeat' first | only_step | apply rd_only | apply Graph_weights_only | apply Graph_nbNeighs_only

theorem Graph_totalWeight_only (g : Graph W) (i : Nat) : Only (Graph.totalWeight g i) := by
  unfold Graph.totalWeight
  repeat' first | only_step | apply Graph_weights_only | apply Graph_boundaryWeight_only

theorem Feats_init_only (g : Graph W) (i : Nat) : Only (Feats.init g i) := by
  unfold Feats.init
  repeat' first | only_step | apply rd_only | apply Graph_totalFaces_only | apply Graph_totalWeight_only

theorem sharedFaces_only (g : Graph W) (i : Nat) (cc : NSet) : Only (sharedFaces g i cc) := by
  unfold sharedFaces
  repeat' first | only_step | apply Graph_neighs_only | apply Graph_weights_only

theorem updateFacets_only (g : Graph W) (i : Nat) (facets : NMap Int) (shared : NSet) : Only (updateFacets g i facets shared) := by
  unfold updateFacets
  repeat' first | only_step | apply NMap_atBang_only | apply Graph_totalFaces_only

theorem updateWeights_only (g : Graph W) (i : Nat) (f : Feats W) (sw : W) : Only (updateWeights g i f sw) := by
  unfold updateWeights
  repeat' first | only_step | apply Graph_totalWeight_only

theorem withWeights_only (cw : Bool) (g : Graph W) (i : Nat) (f : Feats W) (sw : W) (d : Feats W) : Only (withWeights cw g i f sw d) := by
  unfold withWeights
  repeat' first | only_step | apply updateWeights_only

theorem updateBasic_only (cw uf : Bool) (g : Graph W) (i : Nat) (f : Feats W) (cc : NSet) : Only (updateBasic cw uf g i f cc) := by
  unfold updateBasic
  repeat' first | only_step | apply rd_only | apply sharedFaces_only | apply updateFacets_only | apply withWeights_only

theorem updateGeom_only (g : Graph W) (h : Hash) (i : Nat) (f : Feats W) (cc : NSet) : Only (updateGeom g h i f cc) := by
  unfold updateGeom
  repeat' first | only_step | apply rd_only | apply sqDist_only

theorem updateBary_only (g : Graph W) (i : Nat) (f : Feats W) (cc : NSet) : Only (updateBary g i f cc) := by
  unfold updateBary
  repeat' first | only_step | apply rd_only | apply wr_only

theorem maxBary_only (g : Graph W) (h : Hash) (bary : List W) (i : Nat) (cc : NSet) : Only (maxBary g h bary i cc) := by
  unfold maxBary
  repeat' first | only_step | apply rd_only | apply sqDist_only

theorem minMaxFirst_only (g : Graph W) (bary : List W) (facets : NMap Int) (i : Nat) : Only (minMaxFirst g bary facets i) := by
  unfold minMaxFirst
  repeat' first | only_step | apply rd_only | apply sqDist_only

theorem minMaxBary_only (g : Graph W) (h : Hash) (bary : List W) (facets : NMap Int) (i : Nat) (cc : NSet) : Only (minMaxBary g h bary facets i cc) := by
  unfold minMaxBary
  repeat' first | only_step | apply rd_only | apply sqDist_only | apply minMaxFirst_only

theorem arBary_only (g : Graph W) (h : Hash) (kind : ARKind) (i : Nat) (f : Feats W) (cc : NSet) : Only (arBary g h kind i f cc) := by
  unfold arBary
  repeat' first | only_step | apply updateBasic_only | apply updateBary_only | apply maxBary_only | apply minMaxBary_only

theorem arGeom_only (g : Graph W) (h : Hash) (kind : ARKind) (i : Nat) (f : Feats W) (cc : NSet) : Only (arGeom g h kind i f cc) := by
  unfold arGeom
  repeat' first | only_step | apply updateBasic_only | apply updateGeom_only

theorem arPlain_only (g : Graph W) (kind : ARKind) (i : Nat) (f : Feats W) (cc : NSet) : Only (arPlain g kind i f cc) := by
  unfold arPlain
  repeat' first | only_step | apply Graph_weights_only | apply updateBasic_only

/-! ## Correction -/

theorem neighsCC_only (g : Graph W) (fc2cc : List (Option Nat)) (i old : Nat) : Only (neighsCC g fc2cc i old) := by
  unfold neighsCC
  repeat' first | only_step | apply rd_only | apply valueM_only | apply Graph_neighs_only

theorem sharedWith_only (g : Graph W) (fc : Nat) (s : NSet) : Only (sharedWith g fc s) := by
  unfold sharedWith
  repeat' first | only_step | apply Graph_neighs_only

theorem nbRec_only (g : Graph W) (fc id : Nat) (cc : CC) : Only (nbRec g fc id cc) := by
  unfold nbRec
  repeat' first | only_step | apply Graph_minCompactness_only | apply sharedWith_only

theorem isoRecs_only (g : Graph W) (ccs : NMap CC) (fc : Nat) (neighs : NSet) : Only (isoRecs g ccs fc neighs) := by
  unfold isoRecs
  repeat' first | only_step | apply NMap_atBang_only | apply Graph_neighs_only | apply nbRec_only

theorem selectCC_only (g : Graph W) (ccs : NMap CC) (fc : Nat) (neighs : NSet) : Only (selectCC g ccs fc neighs) := by
  unfold selectCC
  repeat' first | only_step | apply Graph_neighs_only | apply isoRecs_only

theorem wholeRecs_only (g : Graph W) (ccs : NMap CC) (fcs neighs : NSet) : Only (wholeRecs g ccs fcs neighs) := by
  unfold wholeRecs
  repeat' first | only_step | apply NMap_atBang_only | apply Graph_neighs_only | apply Graph_minCompactness_only

theorem selectWhole_only (g : Graph W) (ccs : NMap CC) (fcs neighs : NSet) : Only (selectWhole g ccs fcs neighs) := by
  unfold selectWhole
  repeat' first | only_step | apply Graph_neighs_only | apply wholeRecs_only

theorem moveCell_only (c : Cont) (i : Nat) (r : Nat × Nat) : Only (moveCell c i r) := by
  unfold moveCell
  repeat' first | only_step | apply wr_only | apply NMap_atBang_only

theorem neighsByFc_only (g : Graph W) (h : Hash) (c : Cont) (old : Nat) (fcs : NSet) : Only (neighsByFc g h c old fcs) := by
  unfold neighsByFc
  repeat' first | only_step | apply neighsCC_only

theorem tryWhole_only (g : Graph W) (c : Cont) (cc : CC) (nb : List (Nat × NSet)) : Only (tryWhole g c cc nb) := by
  unfold tryWhole
  repeat' first | only_step | apply wr_only | apply NMap_atBang_only | apply selectWhole_only

theorem tryCells_only (g : Graph W) (c : Cont) (nb : List (Nat × NSet)) : Only (tryCells g c nb) := by
  unfold tryCells
  repeat' first | only_step | apply selectCC_only | apply moveCell_only

theorem correctStep_only (g : Graph W) (h : Hash) (a : Cont × NSet) (old : Nat) : Only (correctStep g h a old) := by
  unfold correctStep
  repeat' first | only_step | apply NMap_atBang_only | apply neighsByFc_only | apply tryWhole_only | apply tryCells_only

theorem renameCells_only (f : List (Option Nat)) (s : NSet) (k : Nat) : Only (renameCells f s k) := by
  unfold renameCells
  repeat' first | only_step | apply wr_only

theorem renumber_only (c : Cont) (first : Nat) : Only (renumber c first) := by
  unfold renumber
  repeat' first | only_step | apply renameCells_only

theorem Cont_correct_only (g : Graph W) (h : Hash) (c : Cont) : Only (Cont.correct g h c) := by
  unfold Cont.correct
  repeat' first | only_step | apply correctStep_only | apply renumber_only

/-! ## Isotropic -/

/-- agglomerated cells have a coarse cell -/
structure Sync (n : Nat) (c : Cont) : Prop where
  len : c.agg.length = n
  sync : ∀ i : Nat, c.agg[i]? = some true → c.fc2cc[i]? ≠ some none

theorem markAll_sync {n : Nat} {c c' : Cont} {s : NSet} (h : Sync n c) (hm : c.markAll s = .ok c') :
    c'.agg.length = n ∧ c'.fc2cc = c.fc2cc ∧ c.nbAgg ≤ c'.nbAgg ∧ (0 < s.card → c.nbAgg < c'.nbAgg) ∧
      ∀ i : Nat, c'.agg[i]? = some true → c.agg[i]? = some true ∨ i ∈ s.elems := by
  unfold Cont.markAll at hm
  have := foldlM_ok_prefix (I := fun pre (k : Cont) => k.agg.length = n ∧ k.fc2cc = c.fc2cc ∧ c.nbAgg ≤ k.nbAgg ∧
    (pre ≠ [] → c.nbAgg < k.nbAgg) ∧ ∀ i : Nat, k.agg[i]? = some true → c.agg[i]? = some true ∨ i ∈ pre) hm
    ⟨h.len, rfl, Nat.le_refl _, fun h0 => absurd rfl h0, fun i hi => Or.inl hi⟩ (by
      rintro pre a post k k' hl ⟨i1, i2, i3, i4, i5⟩ hk
      simp only [bind_ok_iff, rd_ok] at hk
      obtain ⟨o, ho, _, hn, b, hb, hk⟩ := hk
      have hon : o = none := by
        unfold assertM at hn
        split at hn
        · rename_i h0; simpa using h0
        · cases hn
      split at hk
      · rename_i hbt
        cases hk
        refine ⟨i1, i2, i3, fun _ => ?_, fun i hi => ?_⟩
        · rw [hbt] at hb
          rcases i5 a hb with h5 | h5
          · rw [i2, hon] at ho
            exact absurd ho (h.sync a h5)
          · exact i4 (fun h0 => by rw [h0] at h5; cases h5)
        · rcases i5 i hi with h5 | h5
          · exact Or.inl h5
          · exact Or.inr (List.mem_append.2 (Or.inl h5))
      · simp only [bind_ok_iff] at hk
        obtain ⟨g, hg, hk⟩ := hk
        cases hk
        have hg' : g = k.agg.set a true := by
          unfold wr at hg
          split at hg
          · cases hg; rfl
          · cases hg
        refine ⟨by simp [hg', i1], i2, by simp; omega, fun _ => by simp; omega, fun i hi => ?_⟩
        simp only [hg', List.getElem?_set] at hi
        split at hi
        · rename_i he; right; simp [he]
        · rcases i5 i hi with h5 | h5
          · exact Or.inl h5
          · exact Or.inr (List.mem_append.2 (Or.inl h5)))
  obtain ⟨i1, i2, i3, i4, i5⟩ := this
  exact ⟨i1, i2, i3, fun h0 => i4 (List.length_pos_iff.1 h0), i5⟩

theorem assignAll_sync {c c' : Cont} {s : NSet} (hm : c.assignAll s = .ok c') :
    c'.agg = c.agg ∧ c'.nbAgg = c.nbAgg ∧ (∀ i : Nat, c'.fc2cc[i]? = some none → c.fc2cc[i]? = some none) ∧
      ∀ i ∈ s.elems, c'.fc2cc[i]? ≠ some none := by
  unfold Cont.assignAll at hm
  exact foldlM_ok_prefix (I := fun pre (k : Cont) => k.agg = c.agg ∧ k.nbAgg = c.nbAgg ∧
    (∀ i : Nat, k.fc2cc[i]? = some none → c.fc2cc[i]? = some none) ∧ ∀ i ∈ pre, k.fc2cc[i]? ≠ some none) hm
    ⟨rfl, rfl, fun i hi => hi, by simp⟩ (by
      rintro pre a post k k' hl ⟨i1, i2, i3, i4⟩ hk
      simp only [bind_ok_iff, rd_ok] at hk
      obtain ⟨o, ho, _, hn, f, hf, hk⟩ := hk
      have hf' : f = k.fc2cc.set a (some k.counter) := by
        unfold wr at hf
        split at hf
        · cases hf; rfl
        · cases hf
      cases hk
      refine ⟨i1, i2, fun i hi => ?_, fun i hi => ?_⟩
      · simp only [hf', List.getElem?_set] at hi
        split at hi
        · split at hi <;> simp at hi
        · exact i3 i hi
      · simp only [hf', List.getElem?_set]
        split
        · split <;> simp
        · rename_i hne
          rcases List.mem_append.1 hi with hi | hi
          · exact i4 i hi
          · rw [List.mem_singleton] at hi
            exact absurd hi.symm hne)

theorem create_sync {n : Nat} {c : Cont} {s : NSet} {compact : Nat} {aniso : Bool} {r : Nat × Cont} (h : Sync n c)
    (hc : c.create s compact aniso false = .ok r) :
    Sync n r.2 ∧ c.nbAgg ≤ r.2.nbAgg ∧ (0 < s.card → c.nbAgg < r.2.nbAgg) := by
  unfold Cont.create at hc
  simp only [bind_ok_iff] at hc
  obtain ⟨_, _, c1, h1, hc⟩ := hc
  simp only [Bool.false_eq_true, if_false, bind_ok_iff] at hc
  obtain ⟨c2, h2, hc⟩ := hc
  cases hc
  obtain ⟨a1, a2, a3, a4, a5⟩ := markAll_sync h h1
  obtain ⟨b1, b2, b3, b4⟩ := assignAll_sync h2
  have r1 : (c1.register s compact aniso).agg = c1.agg := by unfold Cont.register; split <;> rfl
  have r2 : (c1.register s compact aniso).nbAgg = c1.nbAgg := by unfold Cont.register; split <;> rfl
  have r3 : (c1.register s compact aniso).fc2cc = c1.fc2cc := by unfold Cont.register; split <;> rfl
  rw [r1] at b1
  rw [r2] at b2
  rw [r3] at b3
  refine ⟨⟨by rw [← a1, ← b1], fun i hi hn => ?_⟩, by simp only [b2]; exact a3, fun h0 => by simp only [b2]; exact a4 h0⟩
  simp only [b1] at hi
  rcases a5 i hi with hi | hi
  · have := b3 i hn
    rw [a2] at this
    exact h.sync i hi this
  · exact b4 i hi hn

theorem isoStep_only {E : IsoEnv W F} (hE : QuietAR E.ar) {c : Cont} (ha : c.agg.length ≤ E.g.nbC)
    (hr : E.g.rowPtr.length ≤ E.g.nbC + 1) (p : Pool) : Only (isoStep E c p) := by
  unfold isoStep
  repeat' first | only_step | apply assertM_only | apply valueM_only | apply Cont_create_only | apply Pool_choose_only | exact chooseOptimal_only hE ha hr _ _

theorem isoStep_sync {E : IsoEnv W F} (hm : 0 < E.minCard) {n : Nat} {c : Cont} {p : Pool} {r : Cont × Pool}
    (h : Sync n c) (hs : isoStep E c p = .ok r) : Sync n r.1 ∧ c.nbAgg < r.1.nbAgg := by
  unfold isoStep at hs
  simp only [bind_ok_iff] at hs
  obtain ⟨_, _, _, _, _, _, o, ho, k, hk, hs⟩ := hs
  cases hs
  obtain ⟨h1, _, h2⟩ := create_sync h hk
  exact ⟨h1, h2 (chooseOptimal_card hm ho)⟩

theorem isoLoop_only {E : IsoEnv W F} (hE : QuietAR E.ar) (hm : 0 < E.minCard)
    (hr : E.g.rowPtr.length ≤ E.g.nbC + 1) (fuel : Nat) :
    ∀ c p, Sync E.g.nbC c → E.g.nbC ≤ c.nbAgg + fuel → Only (isoLoop E fuel c p) := by
  induction fuel with
  | zero =>
    intro c p _ h
    unfold isoLoop
    split
    · omega
    · exact Only.pure
  | succ fuel ih =>
    intro c p hs h
    unfold isoLoop
    split
    · refine Only.bind' (isoStep_only hE (Nat.le_of_eq hs.len) hr p) (fun r hr' => ?_)
      obtain ⟨h1, h2⟩ := isoStep_sync hm hs hr'
      exact ih _ _ h1 (by omega)
    · exact Only.pure

theorem isoRun_only {E : IsoEnv W F} (hE : QuietAR E.ar) (hm : 0 < E.minCard)
    (hr : E.g.rowPtr.length ≤ E.g.nbC + 1) {c : Cont} (hs : Sync E.g.nbC c) (p : Pool) : Only (isoRun E c p) := by
  unfold isoRun
  repeat' first | only_step | exact isoLoop_only hE hm hr _ _ _ hs (by omega) | apply Cont_createDelayed_only

/-! ## Anisotropic -/

theorem getDirection_only (a b dir : List W) : Only (getDirection a b dir) := by
  unfold getDirection
  repeat' first | only_step | apply rd_only | apply wr_only

theorem Graph_centerDirection_only (g : Graph W) (a b : Nat) (dir : List W) : Only (Graph.centerDirection g a b dir) := by
  unfold Graph.centerDirection
  repeat' first | only_step | apply rd_only | apply getDirection_only

theorem dotProduct_only (a b : List W) : Only (dotProduct a b) := by
  unfold dotProduct
  repeat' first | only_step | apply rd_only

theorem maxWeightM_only (l : List W) : Only (maxWeightM l) := by
  unfold maxWeightM
  repeat' first | only_step

theorem distWeights_only (g : Graph W) (i : Nat) (alt : List W) : Only (distWeights g i alt) := by
  unfold distWeights
  repeat' first | only_step | apply rd_only | apply wr_only | apply Graph_neighs_only | apply sqDist_only

theorem tagWeights_only (g : Graph W) (coupling : Coupling) (i : Nat) (mx : W) (s : TagSt W) : Only (tagWeights g coupling i mx s) := by
  unfold tagWeights
  repeat' first | only_step | apply wr_only | apply distWeights_only

theorem tagAll_only (g : Graph W) (prio : List W) (coupling : Coupling) (s : TagSt W) (i : Nat) : Only (tagAll g prio coupling s i) := by
  unfold tagAll
  repeat' first | only_step | apply rd_only | apply wr_only | apply Graph_weights_only | apply maxWeightM_only | apply distWeights_only

theorem keepsLayer_only (g : Graph W) (preserving i : Nat) (nb : Int) : Only (keepsLayer g preserving i nb) := by
  unfold keepsLayer
  repeat' first | only_step | apply rd_only

theorem tagIf_only (g : Graph W) (prio : List W) (preserving : Nat) (thr : W) (i : Nat) (mm : W × W × Int) (s : List (Nat × W)) : Only (tagIf g prio preserving thr i mm s) := by
  unfold tagIf
  repeat' first | only_step | apply rd_only | apply keepsLayer_only

theorem tagByRatio_only (g : Graph W) (prio : List W) (coupling : Coupling) (preserving : Nat) (thr : W) (s : TagSt W) (i : Nat) : Only (tagByRatio g prio coupling preserving thr s i) := by
  unfold tagByRatio
  repeat' first | only_step | apply Graph_neighs_only | apply Graph_weights_only | apply tagWeights_only | apply tagIf_only

theorem tagOne_only (g : Graph W) (prio : List W) (coupling : Coupling) (preserving : Nat) (thr : W) (s : TagSt W) (i : Nat) : Only (tagOne g prio coupling preserving thr s i) := by
  unfold tagOne
  repeat' first | only_step | apply tagAll_only | apply tagByRatio_only

theorem Graph_tagCells_only (g : Graph W) (h : Hash) (prio : List W) (coupling : Coupling) (preserving : Nat) (thr : W) (maxW : List W) (isAniso : List Bool) : Only (Graph.tagCells g h prio coupling preserving thr maxW isAniso) := by
  unfold Graph.tagCells
  repeat' first | only_step | apply wr_only | apply tagOne_only

theorem candWeight_only (L : LineEnv W) (toTreat : List Bool) (seed : Nat) : Only (candWeight L toTreat seed) := by
  unfold candWeight
  repeat' first | only_step | apply rd_only | apply Graph_neighs_only

theorem candDot_only (L : LineEnv W) (prev : List W) (seed n : Nat) (s : List (Nat × W)) : Only (candDot L prev seed n s) := by
  unfold candDot
  repeat' first | only_step | apply Graph_centerDirection_only | apply dotProduct_only

theorem candDir_only (L : LineEnv W) (toTreat : List Bool) (prev : List W) (checkWeight : Bool) (seed : Nat) : Only (candDir L toTreat prev checkWeight seed) := by
  unfold candDir
  repeat' first | only_step | apply rd_only | apply Graph_neighs_only | apply candDot_only

theorem LineSt_extend_only (L : LineEnv W) (s : LineSt W) (x : Nat) : Only (LineSt.extend L s x) := by
  unfold LineSt.extend
  repeat' first | only_step | apply wr_only | apply Graph_centerDirection_only

theorem LineSt_turn_only (s : LineSt W) (primal : Nat) : Only (LineSt.turn s primal) := by
  unfold LineSt.turn
  repeat' first | only_step | apply rd_only | apply valueM_only

theorem firstCands_only (L : LineEnv W) (s : LineSt W) : Only (firstCands L s) := by
  unfold firstCands
  repeat' first | only_step | apply candWeight_only | apply candDir_only

theorem moreCands_only (L : LineEnv W) (s : LineSt W) : Only (moreCands L s) := by
  unfold moreCands
  repeat' first | only_step | apply candDir_only

theorem lineStep_only (L : LineEnv W) (primal : Nat) (s : LineSt W) : Only (lineStep L primal s) := by
  unfold lineStep
  repeat' first | only_step | apply LineSt_extend_only | apply LineSt_turn_only | apply firstCands_only | apply moreCands_only

/-- candidates have still to be treated -/
def Untreated (toTreat : List Bool) (l : List (Nat × W)) : Prop := ∀ e ∈ l, toTreat[e.1]? = some true

theorem candWeight_untreated {L : LineEnv W} {toTreat : List Bool} {seed : Nat} {l : List (Nat × W)}
    (h : candWeight L toTreat seed = .ok l) : Untreated toTreat l := by
  unfold candWeight at h
  simp only [bind_ok_iff] at h
  obtain ⟨off, _, row, _, mx, _, r, hr, h⟩ := h
  cases h
  refine foldlM_ok (I := fun s : Nat × List (Nat × W) => Untreated toTreat s.2) hr (by intro e he; cases he) ?_
  intro n _ s s' hs h
  simp only [bind_ok_iff, rd_ok] at h
  obtain ⟨t, ht, w, _, h⟩ := h
  cases h
  intro e he
  dsimp only at he
  split at he
  · rename_i hc
    rcases mem_pinsert_sub he with rfl | he
    · rw [Bool.and_eq_true] at hc
      rw [ht, hc.1]
    · exact hs e he
  · exact hs e he

theorem candDir_untreated {L : LineEnv W} {toTreat : List Bool} {prev : List W} {b : Bool} {seed : Nat} {l : List (Nat × W)}
    (h : candDir L toTreat prev b seed = .ok l) : Untreated toTreat l := by
  unfold candDir at h
  simp only [bind_ok_iff] at h
  obtain ⟨off, _, row, _, mx, _, r, hr, h⟩ := h
  cases h
  refine foldlM_ok (I := fun s : Nat × List (Nat × W) => Untreated toTreat s.2) hr (by intro e he; cases he) ?_
  intro n _ s s' hs h
  simp only [bind_ok_iff, rd_ok] at h
  obtain ⟨t, ht, w, _, h⟩ := h
  split at h
  · rename_i hc
    simp only [bind_ok_iff] at h
    obtain ⟨c, hc', h⟩ := h
    cases h
    unfold candDot at hc'
    simp only [bind_ok_iff] at hc'
    obtain ⟨_, _, _, _, hc'⟩ := hc'
    cases hc'
    intro e he
    dsimp only at he
    split at he
    · rcases mem_pinsert_sub he with rfl | he
      · rw [Bool.and_eq_true] at hc
        rw [ht, hc.1]
      · exact hs e he
    · exact hs e he
  · cases h; exact hs

theorem extend_left {L : LineEnv W} {s s' : LineSt W} {x : Nat} (hx : s.toTreat[x]? = some true)
    (h : s.extend L x = .ok s') : s'.toTreat.length = s.toTreat.length ∧ s'.left < s.left := by
  unfold LineSt.extend at h
  simp only [bind_ok_iff] at h
  obtain ⟨t, ht, d, _, h⟩ := h
  cases h
  have ht' : t = s.toTreat.set x false := by
    unfold wr at ht
    split at ht
    · cases ht; rfl
    · cases ht
  have := count_set_false hx
  unfold LineSt.left
  simp only [ht', List.length_set, true_and]
  omega

theorem turn_left {s s' : LineSt W} {primal : Nat} (hf : s.fin = false) (h : s.turn primal = .ok s') :
    s'.toTreat.length = s.toTreat.length ∧ s'.left < s.left := by
  unfold LineSt.turn at h
  split at h
  · rename_i hc
    simp only [Bool.and_eq_true, Bool.not_eq_true', decide_eq_true_eq] at hc
    simp only [bind_ok_iff] at h
    obtain ⟨pd, _, d, _, h⟩ := h
    cases h
    unfold LineSt.left
    simp [hc.1, hf]
  · cases h
    unfold LineSt.left
    simp [hf]

theorem lineStep_left {L : LineEnv W} {primal : Nat} {s s' : LineSt W} (hf : s.fin = false)
    (h : lineStep L primal s = .ok s') : s'.toTreat.length = s.toTreat.length ∧ s'.left < s.left := by
  unfold lineStep at h
  obtain ⟨c, hc, h⟩ := bind_ok_iff.1 h
  have h1 : Untreated s.toTreat c := by
    unfold firstCands at hc
    split at hc
    · exact candWeight_untreated hc
    · exact candDir_untreated hc
  match c, h1, h with
  | e :: _, h1, h => exact extend_left (h1 e (by simp)) h
  | [], _, h =>
    obtain ⟨c, hc, h⟩ := bind_ok_iff.1 h
    have h1 : Untreated s.toTreat c := by
      unfold moreCands at hc
      split at hc
      · exact candDir_untreated hc
      · cases hc; intro e he; cases he
    match c, h1, h with
    | e :: _, h1, h => exact extend_left (h1 e (by simp)) h
    | [], _, h => exact turn_left hf h

theorem lineLoop_only (L : LineEnv W) (primal fuel : Nat) :
    ∀ s : LineSt W, s.left ≤ fuel → Only (lineLoop L primal fuel s) := by
  induction fuel with
  | zero =>
    intro s h
    unfold lineLoop
    split
    · exact Only.pure
    · rename_i hf
      unfold LineSt.left at h
      simp [hf] at h
  | succ fuel ih =>
    intro s h
    unfold lineLoop
    split
    · exact Only.pure
    · rename_i hf
      refine Only.bind' (lineStep_only _ _ _) (fun s' hs => ih s' ?_)
      have := (lineStep_left (by simpa using hf) hs).2
      omega

theorem lineLoop_length {L : LineEnv W} {primal fuel : Nat} :
    ∀ {s s' : LineSt W}, lineLoop L primal fuel s = .ok s' → s'.toTreat.length = s.toTreat.length := by
  induction fuel with
  | zero =>
    intro s s' h
    unfold lineLoop at h
    split at h
    · cases h; rfl
    · cases h
  | succ fuel ih =>
    intro s s' h
    unfold lineLoop at h
    split at h
    · cases h; rfl
    · rename_i hf
      obtain ⟨s1, h1, h2⟩ := bind_ok_iff.1 h
      rw [ih h2, (lineStep_left (by simpa using hf) h1).1]

theorem wr_length {α : Type} {v v' : List α} {i : Nat} {a : α} (h : wr v i a = .ok v') : v'.length = v.length := by
  unfold wr at h
  split at h
  · cases h; simp
  · cases h

theorem buildLine_only {L : LineEnv W} {toTreat : List Bool} (ht : toTreat.length = L.g.nbC) (primal : Nat) :
    Only (buildLine L toTreat primal) := by
  unfold buildLine
  refine Only.bind' (wr_only _ _ _) (fun t h1 => Only.bind (lineLoop_only _ _ _ _ ?_) (fun _ => Only.pure))
  have h2 := List.count_le_length (a := true) (l := t)
  rw [wr_length h1, ht] at h2
  unfold LineSt.left
  simp; omega

theorem buildLine_length {L : LineEnv W} {toTreat : List Bool} {primal : Nat} {r : List Nat × List Bool}
    (h : buildLine L toTreat primal = .ok r) : r.2.length = toTreat.length := by
  unfold buildLine at h
  simp only [bind_ok_iff] at h
  obtain ⟨t, h1, s, h2, h⟩ := h
  cases h
  rw [lineLoop_length h2]
  exact wr_length h1

theorem Only.foldlM_inv {α β : Type} {f : β → α → M β} {I : β → Prop} (hf : ∀ b a, I b → Only (f b a))
    (hI : ∀ b a b', I b → f b a = .ok b' → I b') (l : List α) : ∀ b, I b → Only (l.foldlM f b) := by
  induction l with
  | nil => exact fun b _ => Only.pure
  | cons x r ih =>
    exact fun b hb => by rw [List.foldlM_cons]; exact (hf b x hb).bind' (fun b' h' => ih b' (hI b x b' hb h'))

theorem buildFrom_only {L : LineEnv W} {toTreat : List Bool} (ht : toTreat.length = L.g.nbC) (seeds : List Nat) :
    Only (buildFrom L seeds toTreat) := by
  unfold buildFrom
  refine Only.foldlM_inv (I := fun s : List (List Nat) × List Bool => s.2.length = L.g.nbC) ?_ ?_ _ _ ht
  · intro s i hs
    repeat' first | only_step | apply rd_only | apply buildLine_only hs
  · intro s i s' hs h
    obtain ⟨t, _, h⟩ := bind_ok_iff.1 h
    split at h
    · obtain ⟨r, hr, h⟩ := bind_ok_iff.1 h
      cases h
      exact (buildLine_length hr).trans hs
    · cases h; exact hs

theorem buildLines_only (g : Graph W) (h : Hash) (prio : List W) (coupling : Coupling) (force : Bool) (thr : W) :
    Only (buildLines g h prio coupling force thr) := by
  unfold buildLines
  refine Only.bind' (Graph_tagCells_only _ _ _ _ _ _ _ _) (fun t ht => ?_)
  have hl : t.2.2.1.length = g.nbC := by
    unfold Graph.tagCells at ht
    simp only [bind_ok_iff] at ht
    obtain ⟨s, _, b, hb, ht⟩ := ht
    cases ht
    exact foldlM_ok (I := fun v : List Bool => v.length = g.nbC) hb (by simp) (fun a _ v v' hv h' => (wr_length h').trans hv)
  split
  · exact Only.pure
  · refine (rd_only _ _).bind (fun c0 => Only.bind (buildFrom_only hl _) (fun _ => Only.pure))

theorem readLines_only (lines idx : List Nat) : Only (readLines lines idx) := by
  induction idx with
  | nil => exact Only.pure
  | cons b r ih =>
    cases r with
    | nil => exact Only.pure
    | cons e r =>
      unfold readLines
      repeat' first | only_step | apply slice_only

theorem givenLines_only (idx lines : List Nat) : Only (givenLines idx lines) := by
  unfold givenLines
  repeat' first | only_step | apply readLines_only

theorem groupOf_only (L : LineCfg) (line : List Nat) (p : Nat) (third : Bool) : Only (groupOf L line p third) := by
  unfold groupOf
  repeat' first | only_step | apply rd_only

theorem pairStep_only (g : Graph W) (group : List Nat) (s : PairSt) : Only (pairStep g group s) := by
  unfold pairStep
  repeat' first | only_step | apply Cont_create_only | apply Graph_neighs_only

theorem pairLoop_only (g : Graph W) (L : LineCfg) (line : List Nat) (fuel : Nat) :
    ∀ p s, p ≤ line.length → line.length + 1 ≤ p + fuel → Only (pairLoop g L line fuel p s) := by
  induction fuel with
  | zero =>
    intro p s h1 h
    omega
  | succ fuel ih =>
    intro p s h1 h
    unfold pairLoop
    repeat' first | only_step | (apply ih <;> omega) | apply groupOf_only | apply pairStep_only

theorem isForward_only (g : Graph W) (prio : List W) (line : List Nat) : Only (isForward g prio line) := by
  unfold isForward
  repeat' first | only_step | apply rd_only

theorem pairLoop_sync {g : Graph W} {L : LineCfg} {line : List Nat} {n fuel : Nat} :
    ∀ {p : Nat} {s s' : PairSt}, Sync n s.cont → pairLoop g L line fuel p s = .ok s' → Sync n s'.cont := by
  induction fuel with
  | zero =>
    intro p s s' hs h
    unfold pairLoop at h
    split at h
    · cases h; exact hs
    · split at h
      · cases h; exact hs
      · cases h
  | succ fuel ih =>
    intro p s s' hs h
    unfold pairLoop at h
    split at h
    · cases h; exact hs
    · split at h
      · cases h; exact hs
      · simp only [bind_ok_iff] at h
        obtain ⟨grp, _, s1, h1, h⟩ := h
        have h2 : Sync n s1.cont := by
          unfold pairStep at h1
          simp only [bind_ok_iff] at h1
          obtain ⟨_, _, r, hr, h1⟩ := h1
          cases h1
          exact (create_sync hs hr).1
        split at h
        · split at h
          · exact ih h2 h
          · cases h
        · split at h
          · exact ih h2 h
          · cases h

theorem agglomLine_sync {g : Graph W} {prio : List W} {L : LineCfg} {n : Nat} {s s' : Cont × List Nat × List (List Nat)}
    {line : List Nat} (hs : Sync n s.1) (h : agglomLine g prio L s line = .ok s') : Sync n s'.1 := by
  unfold agglomLine at h
  split at h
  · cases h; exact hs
  · simp only [bind_ok_iff] at h
    obtain ⟨_, _, r, hr, h⟩ := h
    cases h
    exact pairLoop_sync (s := ⟨s.1, s.2.1, [], 0⟩) hs hr

theorem agglomLines_sync {g : Graph W} {c : PoolCfg W} {L : LineCfg} {lines : List (List Nat)} {n : Nat} {cont : Cont}
    {p : Pool} {r : Cont × Pool × List (List Nat)} (hs : Sync n cont) (h : agglomLines g c L lines cont p = .ok r) :
    Sync n r.1 := by
  unfold agglomLines at h
  split at h
  · simp only [bind_ok_iff] at h
    obtain ⟨_, _, h⟩ := h
    cases h; exact hs
  · simp only [bind_ok_iff] at h
    obtain ⟨r', h1, _, _, h⟩ := h
    cases h
    exact foldlM_ok (I := fun s : Cont × List Nat × List (List Nat) => Sync n s.1) h1 hs (fun a _ b b' hb h' => agglomLine_sync hb h')

theorem agglomLine_only (g : Graph W) (prio : List W) (L : LineCfg) (s : Cont × List Nat × List (List Nat))
    (line : List Nat) : Only (agglomLine g prio L s line) := by
  unfold agglomLine
  repeat' first | only_step | apply isForward_only | (apply pairLoop_only <;> simp)

theorem dropAgg_only (agg : List Bool) (l : List Nat) : Only (dropAgg agg l) := by
  induction l with
  | nil => exact Only.pure
  | cons x r ih =>
    unfold dropAgg
    repeat' first | only_step | apply rd_only

theorem pushAniso_only (g : Graph W) (c : PoolCfg W) (agg : List Bool) (neighs : List Nat) (p : Pool) : Only (pushAniso g c agg neighs p) := by
  unfold pushAniso
  repeat' first | only_step | apply rd_only | apply Graph_neighs_only | apply Pool_update_only | apply Nbh_update_only | apply dropAgg_only

theorem updateAnisoPool_only (g : Graph W) (c : PoolCfg W) (agg : List Bool) (neighs : List Nat) (p : Pool) : Only (updateAnisoPool g c agg neighs p) := by
  unfold updateAnisoPool
  repeat' first | only_step | apply Graph_neighs_only | apply Pool_initialize_only | apply Pool_needInit_only | apply pushAniso_only

theorem agglomLines_only (g : Graph W) (c : PoolCfg W) (L : LineCfg) (lines : List (List Nat)) (cont : Cont) (p : Pool) : Only (agglomLines g c L lines cont p) := by
  unfold agglomLines
  repeat' first | only_step | apply Pool_initialize_only | apply agglomLine_only | apply updateAnisoPool_only


end CoMMA
