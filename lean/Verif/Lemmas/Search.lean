import Verif.Model.Search
import Verif.Lemmas.Graph
/-! # Neighbourhood search: invariant -/

namespace CoMMA

/-! ### Distances -/

section
variable {R : Nat → Nat → Prop} {S : Nat → Prop}

theorem IsDistance.unique {x k l : Nat} (h : IsDistance R S x k) (h' : IsDistance R S x l) : k = l := by
  obtain ⟨⟨w, hw, hk⟩, hmin⟩ := h
  obtain ⟨⟨w', hw', hl⟩, hmin'⟩ := h'
  have := hmin _ _ hw' hl
  have := hmin' _ _ hw hk
  omega

theorem IsDistance.zero {x : Nat} : IsDistance R S x 0 ↔ S x := by
  constructor
  · rintro ⟨⟨w, hw, h⟩, _⟩
    cases h; exact hw
  · intro h; exact ⟨⟨x, h, .nil x⟩, fun _ _ _ _ => Nat.zero_le _⟩

theorem ReachableFrom.dist {x : Nat} (h : ReachableFrom R S x) : ∃ k, IsDistance R S x k := by
  obtain ⟨k, w, hw, hk⟩ := h
  induction k using Nat.strongRecOn generalizing w with
  | ind k ih =>
    by_cases hex : ∃ l w', S w' ∧ Walk R l w' x ∧ l < k
    · obtain ⟨l, w', hw', hl, hlt⟩ := hex
      exact ih l hlt w' hw' hl
    · refine ⟨k, ⟨w, hw, hk⟩, fun l w' hw' hl => ?_⟩
      by_contra hc
      exact hex ⟨l, w', hw', hl, by omega⟩

theorem IsDistance.pred {x k : Nat} (h : IsDistance R S x (k + 1)) : ∃ y, IsDistance R S y k ∧ R y x := by
  obtain ⟨⟨w, hw, hk⟩, hmin⟩ := h
  cases hk with
  | @step _ _ y _ h1 h2 =>
    refine ⟨y, ⟨⟨w, hw, h1⟩, fun l w' hw' hl => ?_⟩, h2⟩
    have := hmin _ _ hw' (hl.step h2)
    omega

theorem IsDistance.succ_le {x y k : Nat} (h : IsDistance R S y k) (hr : R y x) : ∃ l, IsDistance R S x l ∧ l ≤ k + 1 := by
  obtain ⟨⟨w, hw, hk⟩, _⟩ := h
  obtain ⟨l, hl⟩ := ReachableFrom.dist (R := R) (S := S) (x := x) ⟨k + 1, w, hw, hk.step hr⟩
  exact ⟨l, hl, hl.2 _ w hw (hk.step hr)⟩

end

/-! ### Maps -/

namespace NMap
variable {V : Type}

theorem foldl_insert_find? (l : List (Nat × V)) (hl : l.Pairwise (fun a b => a.1 < b.1)) (d : NMap V) (k : Nat) :
    (l.foldl (fun d e => d.insert e.1 e.2) d).find? k =
      match l.lookup k with
      | some v => some v
      | none => d.find? k := by
  induction l generalizing d with
  | nil => rfl
  | cons e l ih =>
    rw [List.pairwise_cons] at hl
    rw [List.foldl_cons, ih hl.2, lookup_cons_if, find?_insert]
    by_cases hk : k = e.1
    · have : l.lookup k = none := by
        cases hlk : l.lookup k with
        | none => rfl
        | some v =>
          have := (lookup_eq_some_iff hl.2).1 hlk
          have := hl.1 _ this
          simp at this; omega
      rw [this]; simp [hk]
    · simp [hk]

theorem find?_merge (d p : NMap V) (k : Nat) : (d.merge p).find? k =
    match p.find? k with
    | some v => some v
    | none => d.find? k := foldl_insert_find? p.entries p.sorted d k

theorem size_merge {d p : NMap V} (h : ∀ k, k ∈ p.keys → ¬ k ∈ d.keys) : (d.merge p).size = d.size + p.size := by
  unfold merge
  have key : ∀ (l : List (Nat × V)) (d : NMap V), l.Pairwise (fun a b => a.1 < b.1) →
      (∀ e ∈ l, ¬ e.1 ∈ d.keys) → (l.foldl (fun d e => d.insert e.1 e.2) d).size = d.size + l.length := by
    intro l
    induction l with
    | nil => intro d _ _; rfl
    | cons e l ih =>
      intro d hl hd
      rw [List.pairwise_cons] at hl
      rw [List.foldl_cons, ih _ hl.2, size_insert_new (hd e (by simp)), List.length_cons]
      · omega
      · intro e' he'
        rw [mem_keys_insert]
        rintro (h | h)
        · have := hl.1 e' he'; omega
        · exact hd e' (by simp [he']) h
  exact key p.entries d p.sorted (fun e he => h e.1 (List.mem_map.2 ⟨e, he, rfl⟩))

theorem find?_foldl_erase (l : List Nat) (d : NMap V) (k : Nat) :
    (l.foldl (fun m i => m.erase i) d).find? k = if k ∈ l then none else d.find? k := by
  induction l generalizing d with
  | nil => simp
  | cons i l ih =>
    rw [List.foldl_cons, ih, find?_erase]
    by_cases h1 : k ∈ l <;> by_cases h2 : k = i <;> simp [h1, h2]

theorem find?_foldl_const (l : List Nat) (v : V) (d : NMap V) (k : Nat) :
    (l.foldl (fun m i => m.insert i v) d).find? k = if k ∈ l then some v else d.find? k := by
  induction l generalizing d with
  | nil => simp
  | cons i l ih =>
    rw [List.foldl_cons, ih, find?_insert]
    by_cases h1 : k ∈ l <;> by_cases h2 : k = i <;> simp [h1, h2]

theorem size_le_of_keys_lt {m : NMap V} {n : Nat} (h : ∀ k ∈ m.keys, k < n) : m.size ≤ n := by
  rw [← card_keySet]
  have : m.keySet.card ≤ (NSet.ofList (List.range n)).card :=
    NSet.card_le_of_subset (by intro a ha; simpa using h a ha)
  rwa [NSet.card_ofList List.nodup_range, List.length_range] at this

theorem size_eq_zero_iff {m : NMap V} : m.size = 0 ↔ ∀ k, m.find? k = none := by
  unfold size
  rw [List.length_eq_zero_iff]
  constructor
  · intro h k; simp [find?, h]
  · intro h
    by_contra hne
    obtain ⟨e, he⟩ := List.exists_mem_of_ne_nil _ hne
    have := h e.1
    rw [find?_eq_some.2 (show (e.1, e.2) ∈ m.entries from he)] at this; cases this

end NMap

/-! ### The search -/

variable {W : Type} {g : Graph W}

theorem neighs_eq (h : ValidCRS g.nbC g.rowPtr g.colInd) {i : Nat} (hi : i < g.nbC) :
    g.neighs i = .ok (rowL g.rowPtr g.colInd i) := h.rowM_eq hi _ rfl

theorem rdBool {agg : List Bool} {n x : Nat} (ha : agg.length = n) (hx : x < n) :
    ∃ a, rd agg x = .ok a ∧ agg[x]? = some a := by
  have hlt : x < agg.length := by omega
  exact ⟨agg[x], rd_of_lt hlt, by simp [hlt]⟩

/-- contents of the layer that is built; previous layer contained in the dictionary -/
theorem nbhLayer_spec (h : ValidCRS g.nbC g.rowPtr g.colInd) (hh : Hash) {d prev : NMap Nat} {agg : List Bool}
    (ha : agg.length = g.nbC) (hp : ∀ k, k ∈ prev.keys → k < g.nbC ∧ k ∈ d.keys) (i : Nat) :
    Ok (g.nbhLayer hh d prev agg i) (fun cur => ∀ x o, cur.find? x = some o ↔
      o = i ∧ ¬ x ∈ d.keys ∧ ∃ y ∈ prev.keys, FreeAdj g.rowPtr g.colInd agg y x) := by
  unfold Graph.nbhLayer
  refine Ok.mono (Ok.foldlM_prefix (I := fun pre (cur : NMap Nat) => ∀ x o, cur.find? x = some o ↔
      o = i ∧ ¬ x ∈ d.keys ∧ ∃ y ∈ pre, FreeAdj g.rowPtr g.colInd agg y x) (by simp) ?_) ?_
  · intro pre y post cur hl hI
    have hy : y ∈ prev.keys := (hh.perm 3 prev.keys).mem_iff.1 (by rw [hl]; simp)
    have hyn := (hp y hy).1
    rw [neighs_eq h hyn]
    simp only [ok_bind]
    refine Ok.mono (Ok.foldlM_prefix (I := fun rp (cur : NMap Nat) => ∀ x o, cur.find? x = some o ↔
      o = i ∧ ¬ x ∈ d.keys ∧ ((∃ y ∈ pre, FreeAdj g.rowPtr g.colInd agg y x) ∨ (x ∈ rp ∧ agg[x]? = some false)))
      (by intro x o; rw [hI]; simp) ?_) ?_
    · intro rp x post' cur' hl' hI'
      have hxr : x ∈ rowL g.rowPtr g.colInd y := by rw [hl']; simp
      have hxn := h.rowL_lt hyn hxr
      unfold nbhVisit
      by_cases hdx : d.has x = true
      · rw [if_pos hdx]
        simp only [Ok_pure]
        have hdk := NMap.has_iff.1 hdx
        intro z o
        rw [hI']
        simp only [List.mem_append, List.mem_singleton]
        constructor
        · rintro ⟨h1, h2, h3 | h3⟩
          · exact ⟨h1, h2, Or.inl h3⟩
          · exact ⟨h1, h2, Or.inr ⟨Or.inl h3.1, h3.2⟩⟩
        · rintro ⟨h1, h2, h3 | ⟨h3 | h3, h4⟩⟩
          · exact ⟨h1, h2, Or.inl h3⟩
          · exact ⟨h1, h2, Or.inr ⟨h3, h4⟩⟩
          · subst h3; exact absurd hdk h2
      · rw [if_neg hdx]
        have hdk : ¬ x ∈ d.keys := fun hk => hdx (NMap.has_iff.2 hk)
        obtain ⟨a, ha1, ha2⟩ := rdBool ha hxn
        rw [ha1]
        simp only [ok_bind, Ok_pure]
        cases a with
        | true =>
          simp only [if_true]
          intro z o
          rw [hI']
          simp only [List.mem_append, List.mem_singleton]
          constructor
          · rintro ⟨h1, h2, h3 | h3⟩
            · exact ⟨h1, h2, Or.inl h3⟩
            · exact ⟨h1, h2, Or.inr ⟨Or.inl h3.1, h3.2⟩⟩
          · rintro ⟨h1, h2, h3 | ⟨h3 | h3, h4⟩⟩
            · exact ⟨h1, h2, Or.inl h3⟩
            · exact ⟨h1, h2, Or.inr ⟨h3, h4⟩⟩
            · subst h3; rw [ha2] at h4; cases h4
        | false =>
          have hpn : prev.find? x = none := NMap.find?_eq_none.2 (fun hk => hdk (hp x hk).2)
          intro z o
          have : nbhAdd prev i cur' x = if cur'.has x then cur' else cur'.insert x i := by
            unfold nbhAdd; rw [hpn]
          rw [if_neg (by simp), this]
          by_cases hcx : cur'.has x = true
          · rw [if_pos hcx, hI']
            obtain ⟨o', ho'⟩ := NMap.mem_keys.1 (NMap.has_iff.1 hcx)
            have hx' := (hI' x o').1 ho'
            simp only [List.mem_append, List.mem_singleton]
            constructor
            · rintro ⟨h1, h2, h3 | h3⟩
              · exact ⟨h1, h2, Or.inl h3⟩
              · exact ⟨h1, h2, Or.inr ⟨Or.inl h3.1, h3.2⟩⟩
            · rintro ⟨h1, h2, h3 | ⟨h3 | h3, h4⟩⟩
              · exact ⟨h1, h2, Or.inl h3⟩
              · exact ⟨h1, h2, Or.inr ⟨h3, h4⟩⟩
              · subst h3; exact ⟨h1, h2, hx'.2.2⟩
          · rw [if_neg hcx, NMap.find?_insert]
            simp only [List.mem_append, List.mem_singleton]
            by_cases hzx : z = x
            · subst hzx
              simp only [if_true]
              constructor
              · rintro h1; cases h1; exact ⟨rfl, hdk, Or.inr ⟨Or.inr trivial, ha2⟩⟩
              · rintro ⟨h1, _⟩; rw [h1]
            · rw [if_neg hzx, hI']
              constructor
              · rintro ⟨h1, h2, h3 | h3⟩
                · exact ⟨h1, h2, Or.inl h3⟩
                · exact ⟨h1, h2, Or.inr ⟨Or.inl h3.1, h3.2⟩⟩
              · rintro ⟨h1, h2, h3 | ⟨h3 | h3, h4⟩⟩
                · exact ⟨h1, h2, Or.inl h3⟩
                · exact ⟨h1, h2, Or.inr ⟨h3, h4⟩⟩
                · exact absurd h3 hzx
    · intro cur' hc x o
      rw [hc]
      simp only [List.mem_append, List.mem_singleton]
      constructor
      · rintro ⟨h1, h2, ⟨y', hy', h3⟩ | ⟨h3, h4⟩⟩
        · exact ⟨h1, h2, y', Or.inl hy', h3⟩
        · exact ⟨h1, h2, y, Or.inr rfl, (h.mem_rowL hyn).1 h3, h4⟩
      · rintro ⟨h1, h2, y', hy' | rfl, h3⟩
        · exact ⟨h1, h2, Or.inl ⟨y', hy', h3⟩⟩
        · exact ⟨h1, h2, Or.inr ⟨(h.mem_rowL hyn).2 h3.1, h3.2⟩⟩
  · intro cur hc x o
    rw [hc]
    simp only [(hh.perm 3 prev.keys).mem_iff]

/-- state of the search at order `i`: everything closer than `i` is known -/
structure NbhInv (g : Graph W) (seeds : NSet) (agg : List Bool) (s : NbhState) : Prop where
  pos : 0 < s.iOrder
  d : ∀ x k, s.d.find? x = some k ↔ IsDistance (FreeAdj g.rowPtr g.colInd agg) (· ∈ seeds) x k ∧ k + 1 < s.iOrder
  prev : ∀ x k, s.prev.find? x = some k ↔ IsDistance (FreeAdj g.rowPtr g.colInd agg) (· ∈ seeds) x k ∧ k + 1 = s.iOrder
  size : s.iOrder ≤ s.d.size + s.prev.size

theorem NbhInv.disjoint {seeds : NSet} {agg : List Bool} {s : NbhState} (hI : NbhInv g seeds agg s) :
    ∀ k, k ∈ s.prev.keys → ¬ k ∈ s.d.keys := by
  intro k h1 h2
  obtain ⟨v, hv⟩ := NMap.mem_keys.1 h1
  obtain ⟨w, hw⟩ := NMap.mem_keys.1 h2
  obtain ⟨h3, h4⟩ := (hI.prev k v).1 hv
  obtain ⟨h5, h6⟩ := (hI.d k w).1 hw
  have := h3.unique h5
  omega

theorem NbhInv.merge {seeds : NSet} {agg : List Bool} {s : NbhState} (hI : NbhInv g seeds agg s) :
    ∀ x k, (s.d.merge s.prev).find? x = some k ↔
      IsDistance (FreeAdj g.rowPtr g.colInd agg) (· ∈ seeds) x k ∧ k < s.iOrder := by
  intro x k
  rw [NMap.find?_merge]
  cases hp : s.prev.find? x with
  | some v =>
    simp only
    obtain ⟨h1, h2⟩ := (hI.prev x v).1 hp
    constructor
    · rintro h; cases h; exact ⟨h1, by omega⟩
    · rintro ⟨h3, h4⟩; rw [h1.unique h3]
  | none =>
    simp only
    rw [hI.d]
    constructor
    · rintro ⟨h1, h2⟩; exact ⟨h1, by omega⟩
    · rintro ⟨h1, h2⟩
      refine ⟨h1, ?_⟩
      by_contra hc
      have : s.prev.find? x = some k := (hI.prev x k).2 ⟨h1, by omega⟩
      rw [hp] at this; cases this

theorem freeWalk_lt (h : ValidCRS g.nbC g.rowPtr g.colInd) {agg : List Bool} {seeds : NSet}
    (hs : ∀ x ∈ seeds, x < g.nbC) {x k : Nat}
    (hd : IsDistance (FreeAdj g.rowPtr g.colInd agg) (· ∈ seeds) x k) : x < g.nbC := by
  obtain ⟨⟨w, hw, hk⟩, _⟩ := hd
  cases hk with
  | nil => exact hs _ hw
  | step _ h2 => exact (h.adj_lt h2.1).2

/-- the loop returns; either everything reachable was found or both exit conditions hold -/
theorem nbhLoop_spec (h : ValidCRS g.nbC g.rowPtr g.colInd) (hh : Hash) {agg : List Bool}
    (ha : agg.length = g.nbC) {seeds : NSet} (hs : ∀ x ∈ seeds, x < g.nbC) (nbOrder maxCard : Nat)
    (fuel : Nat) {s : NbhState} (hI : NbhInv g seeds agg s) (hf : g.nbC + 1 ≤ fuel + s.iOrder)
    (hmin : s.iOrder ≤ nbOrder + 1 ∨ FewBefore (FreeAdj g.rowPtr g.colInd agg) (· ∈ seeds) s.iOrder maxCard) :
    Ok (g.nbhLoop hh agg nbOrder maxCard fuel s) (fun r =>
      (∀ x k, (r.d.merge r.prev).find? x = some k ↔
        IsDistance (FreeAdj g.rowPtr g.colInd agg) (· ∈ seeds) x k ∧ k < r.iOrder) ∧
      ((∀ x k, IsDistance (FreeAdj g.rowPtr g.colInd agg) (· ∈ seeds) x k → k < r.iOrder) ∨
        (nbOrder < r.iOrder ∧ maxCard ≤ (r.d.merge r.prev).size)) ∧
      (r.iOrder ≤ nbOrder + 1 ∨ FewBefore (FreeAdj g.rowPtr g.colInd agg) (· ∈ seeds) r.iOrder maxCard)) := by
  induction fuel generalizing s with
  | zero =>
    exfalso
    have hb : (s.d.merge s.prev).size ≤ g.nbC := by
      apply NMap.size_le_of_keys_lt
      intro k hk
      obtain ⟨v, hv⟩ := NMap.mem_keys.1 hk
      exact freeWalk_lt h hs ((hI.merge k v).1 hv).1
    rw [NMap.size_merge hI.disjoint] at hb
    have := hI.size
    omega
  | succ fuel ih =>
    unfold Graph.nbhLoop
    by_cases hgo : nbhGo nbOrder maxCard s = true
    · rw [if_pos hgo]
      simp only
      have hm := hI.merge
      refine Ok.bind (nbhLayer_spec h hh ha (prev := s.prev) ?_ s.iOrder) (fun cur hc => ?_)
      · intro k hk
        obtain ⟨v, hv⟩ := NMap.mem_keys.1 hk
        have hv' := (hI.prev k v).1 hv
        exact ⟨freeWalk_lt h hs hv'.1, NMap.mem_keys.2 ⟨v, (hm k v).2 ⟨hv'.1, by omega⟩⟩⟩
      · -- the new layer holds exactly the cells at distance iOrder
        have hcur : ∀ x k, cur.find? x = some k ↔
            IsDistance (FreeAdj g.rowPtr g.colInd agg) (· ∈ seeds) x k ∧ k = s.iOrder := by
          intro x k
          rw [hc]
          constructor
          · rintro ⟨rfl, h2, y, hy, hr⟩
            obtain ⟨v, hv⟩ := NMap.mem_keys.1 hy
            obtain ⟨h3, h4⟩ := (hI.prev y v).1 hv
            obtain ⟨l, hl, hle⟩ := h3.succ_le hr
            have hlo : l = s.iOrder := by
              by_contra hne
              exact h2 (NMap.mem_keys.2 ⟨l, (hm x l).2 ⟨hl, by omega⟩⟩)
            subst hlo
            exact ⟨hl, rfl⟩
          · rintro ⟨h1, rfl⟩
            refine ⟨rfl, ?_, ?_⟩
            · intro hk
              obtain ⟨v, hv⟩ := NMap.mem_keys.1 hk
              obtain ⟨h3, h4⟩ := (hm x v).1 hv
              have := h1.unique h3
              omega
            · have hpos := hI.pos
              obtain ⟨o, ho⟩ : ∃ o, s.iOrder = o + 1 := ⟨s.iOrder - 1, by omega⟩
              rw [ho] at h1
              obtain ⟨y, hy, hr⟩ := h1.pred
              exact ⟨y, NMap.mem_keys.2 ⟨o, (hI.prev y o).2 ⟨hy, by omega⟩⟩, hr⟩
        by_cases he : cur.entries.isEmpty = true
        · rw [if_pos he]
          simp only [Ok_pure]
          have hnone : ∀ x, cur.find? x = none := by
            have : cur.size = 0 := by simpa [NMap.size] using he
            exact NMap.size_eq_zero_iff.1 this
          have hself : ∀ x k, ((s.d.merge s.prev).merge s.prev).find? x = some k ↔
              IsDistance (FreeAdj g.rowPtr g.colInd agg) (· ∈ seeds) x k ∧ k < s.iOrder := by
            intro x k
            rw [NMap.find?_merge]
            cases hp : s.prev.find? x with
            | some v =>
              simp only
              rw [← hm x k, NMap.find?_merge, hp]
            | none => simp only; exact hm x k
          refine ⟨hself, Or.inl ?_, hmin⟩
          intro x k
          induction k generalizing x with
          | zero => intro _; exact hI.pos
          | succ k ihk =>
            intro hd
            obtain ⟨y, hy, hr⟩ := hd.pred
            have := ihk y hy
            by_contra hge
            have heq : k + 1 = s.iOrder := by omega
            have := (hcur x (k + 1)).2 ⟨hd, heq⟩
            rw [hnone] at this; cases this
        · rw [if_neg he]
          refine ih (s := ⟨s.iOrder + 1, s.d.merge s.prev, cur⟩) ⟨Nat.succ_pos _, fun x k => ?_, fun x k => ?_, ?_⟩ ?_ ?_
          · simp only
            rw [hm]
            constructor
            · rintro ⟨h1, h2⟩; exact ⟨h1, by omega⟩
            · rintro ⟨h1, h2⟩; exact ⟨h1, by omega⟩
          · simp only
            rw [hcur]
            constructor
            · rintro ⟨h1, h2⟩; exact ⟨h1, by omega⟩
            · rintro ⟨h1, h2⟩; exact ⟨h1, by omega⟩
          · simp only
            rw [NMap.size_merge hI.disjoint]
            have : cur.size ≠ 0 := by simpa [NMap.size] using he
            have := hI.size
            omega
          · simp only; omega
          · simp only [nbhGo, Bool.or_eq_true, decide_eq_true_eq] at hgo
            rcases hgo with hgo | hgo
            · exact Or.inl hgo
            · refine Or.inr ⟨(s.d.merge s.prev).keys, NMap.keys_nodup _, ?_, ?_⟩
              · intro x
                rw [NMap.mem_keys]
                simp only [hm, Nat.add_lt_add_iff_right]
              · rw [← NMap.size_eq_keys, NMap.size_merge hI.disjoint]; exact hgo
    · rw [if_neg hgo]
      simp only [Ok_pure]
      refine ⟨hI.merge, Or.inr ?_, hmin⟩
      simp only [nbhGo, Bool.or_eq_true, decide_eq_true_eq, not_or] at hgo
      rw [NMap.size_merge hI.disjoint]
      omega

/-- summary of the search from a non-empty set of seeds -/
theorem neighbourhood_spec (h : ValidCRS g.nbC g.rowPtr g.colInd) (hh : Hash) {agg : List Bool}
    (ha : agg.length = g.nbC) {seeds : NSet} (hs : ∀ x ∈ seeds, x < g.nbC) (hne : 0 < seeds.card)
    (nbOrder : Nat) {maxCard : Nat} (hmc : 1 < maxCard) :
    Ok (g.neighbourhood hh seeds nbOrder maxCard agg) (fun r =>
      (∀ x k, r.2.find? x = some k ↔
        IsDistance (FreeAdj g.rowPtr g.colInd agg) (· ∈ seeds) x k ∧ 0 < k ∧ k < r.1) ∧
      ((∀ x k, IsDistance (FreeAdj g.rowPtr g.colInd agg) (· ∈ seeds) x k → k < r.1) ∨
        (nbOrder < r.1 ∧ maxCard ≤ seeds.card + r.2.size)) ∧
      (r.1 ≤ nbOrder + 1 ∨ FewBefore (FreeAdj g.rowPtr g.colInd agg) (· ∈ seeds) r.1 maxCard)) := by
  unfold Graph.neighbourhood
  rw [show decide (1 < maxCard) = true by simpa using hmc, assertM_true]
  simp only [ok_bind]
  have hseed : ∀ x k, (seeds.elems.foldl (fun (m : NMap Nat) i => m.insert i 0) NMap.empty).find? x = some k ↔
      x ∈ seeds ∧ k = 0 := by
    intro x k
    rw [NMap.find?_foldl_const]
    by_cases hx : x ∈ seeds.elems
    · rw [if_pos hx]; simp only [NSet.mem_elems] at hx; simp [hx, eq_comm]
    · rw [if_neg hx]; simp only [NSet.mem_elems] at hx; simp [hx]
  have hsize : (seeds.elems.foldl (fun (m : NMap Nat) i => m.insert i 0) NMap.empty).size = seeds.card := by
    rw [← NMap.card_keySet]
    congr 1
    apply NSet.ext
    intro a
    rw [NMap.mem_keySet, NMap.mem_keys]
    simp [hseed]
  refine Ok.bind (nbhLoop_spec h hh ha hs nbOrder maxCard (g.nbC + 1) ⟨by simp, ?_, ?_, ?_⟩ (by simp) (Or.inl (by simp))) ?_
  · intro x k; simp
  · intro x k
    simp only
    rw [hseed]
    constructor
    · rintro ⟨h1, rfl⟩; exact ⟨IsDistance.zero.2 h1, rfl⟩
    · rintro ⟨h1, h2⟩
      have : k = 0 := by omega
      subst this
      exact ⟨IsDistance.zero.1 h1, rfl⟩
  · simp only [hsize]; simp [NMap.size, NMap.empty]; omega
  · rintro s ⟨h1, h2, hmin⟩
    simp only [Ok_pure]
    have hfind : ∀ x k, (seeds.elems.foldl (fun m i => m.erase i) (s.d.merge s.prev)).find? x = some k ↔
        IsDistance (FreeAdj g.rowPtr g.colInd agg) (· ∈ seeds) x k ∧ 0 < k ∧ k < s.iOrder := by
      intro x k
      rw [NMap.find?_foldl_erase]
      by_cases hx : x ∈ seeds.elems
      · rw [if_pos hx]
        simp only [reduceCtorEq, false_iff, not_and]
        intro h3 h4
        have := h3.unique (IsDistance.zero.2 hx)
        omega
      · rw [if_neg hx, h1]
        constructor
        · rintro ⟨h3, h4⟩
          refine ⟨h3, ?_, h4⟩
          by_contra hc
          have : k = 0 := by omega
          subst this
          exact hx (IsDistance.zero.1 h3)
        · rintro ⟨h3, _, h4⟩; exact ⟨h3, h4⟩
    refine ⟨hfind, ?_, hmin⟩
    rcases h2 with h2 | ⟨h2, h3⟩
    · exact Or.inl h2
    · refine Or.inr ⟨h2, Nat.le_trans h3 ?_⟩
      rw [← NMap.card_keySet, ← NMap.card_keySet]
      rw [show seeds.card + (NMap.keySet (seeds.elems.foldl (fun m i => m.erase i) (s.d.merge s.prev))).card
        = (seeds.elems ++ (NMap.keySet (seeds.elems.foldl (fun m i => m.erase i) (s.d.merge s.prev))).elems).length by
          simp [NSet.card]]
      apply List.Subperm.length_le
      apply List.subperm_of_subset (NSet.nodup _)
      intro a ha'
      have ha'' : a ∈ (s.d.merge s.prev).keySet := ha'
      rw [NMap.mem_keySet, NMap.mem_keys] at ha''
      obtain ⟨v, hv⟩ := ha''
      rw [List.mem_append]
      by_cases hx : a ∈ seeds.elems
      · exact Or.inl hx
      · refine Or.inr ?_
        show a ∈ NMap.keySet _
        rw [NMap.mem_keySet, NMap.mem_keys]
        refine ⟨v, ?_⟩
        rw [NMap.find?_foldl_erase, if_neg hx, hv]

end CoMMA
