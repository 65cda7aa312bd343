import Verif.Lemmas.CoarseGraph
import Verif.Lemmas.ExampleTools
/-! # Rows of the coarse graph -/

set_option linter.unusedSectionVars false

namespace CoMMA

variable {W : Type} [Num W]

theorem flatten_getElem {α : Type} (ls : List (List α)) : ∀ (k q : Nat) (r : List α), ls[k]? = some r → q < r.length →
    ls.flatten[(ls.take k).flatten.length + q]? = r[q]? := by
  induction ls with
  | nil => intro k q r h; simp at h
  | cons l ls ih =>
    intro k q r h hq
    cases k with
    | zero =>
      simp only [List.getElem?_cons_zero, Option.some.injEq] at h
      subst h
      simp [List.getElem?_append_left hq]
    | succ k =>
      rw [List.getElem?_cons_succ] at h
      have := ih k q r h hq
      simp only [List.take_succ_cons, List.flatten_cons, List.length_append]
      rw [List.getElem?_append_right (by omega), ← this]
      congr 1; omega

/-- bounds of a block -/
theorem offsets_block {ls : List (List Nat)} {k : Nat} {r : List Nat} (h : ls[k]? = some r) :
    (offsets 0 ls)[k]? = some (ls.take k).flatten.length ∧
    (offsets 0 ls)[k + 1]? = some ((ls.take k).flatten.length + r.length) := by
  have hk := (List.getElem?_eq_some_iff.1 h).1
  have e : ls.take (k + 1) = ls.take k ++ [r] := by rw [List.take_succ, h]; rfl
  refine ⟨by rw [offsets_getElem _ _ _ (by omega), Nat.zero_add], ?_⟩
  rw [offsets_getElem _ _ _ (by omega), Nat.zero_add, e]
  simp

theorem enc_adj {ls : List (List Nat)} {k l : Nat} :
    Adj (offsets 0 ls) ls.flatten k l ↔ ∃ r, ls[k]? = some r ∧ l ∈ r := by
  constructor
  · rintro ⟨b, e, p, hb, he, h1, h2, h3⟩
    have hk : k < ls.length := by
      have := (List.getElem?_eq_some_iff.1 he).1
      rw [offsets_length] at this; omega
    have hr := List.getElem?_eq_getElem hk
    obtain ⟨h4, h5⟩ := offsets_block hr
    rw [h4] at hb; rw [h5] at he
    cases hb; cases he
    refine ⟨_, hr, ?_⟩
    have := flatten_getElem ls k (p - (ls.take k).flatten.length) _ hr (by omega)
    rw [show (ls.take k).flatten.length + (p - (ls.take k).flatten.length) = p by omega, h3] at this
    exact List.mem_of_getElem? this.symm
  · rintro ⟨r, hr, hl⟩
    obtain ⟨q, hq⟩ := List.mem_iff_getElem?.1 hl
    have hql := (List.getElem?_eq_some_iff.1 hq).1
    obtain ⟨h4, h5⟩ := offsets_block hr
    exact ⟨_, _, _, h4, h5, Nat.le_add_right _ q, by omega, by rw [flatten_getElem ls k q r hr hql]; exact hq⟩

theorem enc_crs {ls : List (List Nat)} (h : ∀ r ∈ ls, ∀ l ∈ r, l < ls.length) :
    ValidCRS ls.length (offsets 0 ls) ls.flatten := by
  refine ⟨offsets_length _ _, ?_, ?_, ?_⟩
  · intro k b e hb he
    have hk : k < ls.length := by
      have := (List.getElem?_eq_some_iff.1 he).1
      rw [offsets_length] at this; omega
    obtain ⟨h4, h5⟩ := offsets_block (List.getElem?_eq_getElem hk)
    rw [h4] at hb; rw [h5] at he
    cases hb; cases he; omega
  · rw [offsets_getElem _ _ _ (by omega), List.take_length, Nat.zero_add]
  · intro j hj
    obtain ⟨r, hr, hjr⟩ := List.mem_flatten.1 hj
    exact h r hr j hjr

theorem enc_uniq {ls : List (List Nat)} (h : ∀ r ∈ ls, r.Nodup) : UniqueRows (offsets 0 ls) ls.flatten := by
  intro k b e hb he p q j hp hpe hq hqe hpj hqj
  have hk : k < ls.length := by
    have := (List.getElem?_eq_some_iff.1 he).1
    rw [offsets_length] at this; omega
  have hr := List.getElem?_eq_getElem hk
  obtain ⟨h4, h5⟩ := offsets_block hr
  rw [h4] at hb; rw [h5] at he
  cases hb; cases he
  have e1 := flatten_getElem ls k (p - (ls.take k).flatten.length) _ hr (by omega)
  have e2 := flatten_getElem ls k (q - (ls.take k).flatten.length) _ hr (by omega)
  rw [show (ls.take k).flatten.length + (p - (ls.take k).flatten.length) = p by omega, hpj] at e1
  rw [show (ls.take k).flatten.length + (q - (ls.take k).flatten.length) = q by omega, hqj] at e2
  have hn := h _ (List.getElem_mem hk)
  have := (List.getElem?_inj (i := p - (ls.take k).flatten.length) (j := q - (ls.take k).flatten.length)
    (by omega) hn).1 (by rw [← e1, ← e2])
  omega

theorem rowOf_positions {n : Nat} {rp ci : List Nat} (hv : ValidCRS n rp ci) {i : Nat} (hi : i < n) :
    rowOf rp ci i = entriesAt ci (positions rp i) ∧ ∀ p ∈ positions rp i, p < ci.length := by
  obtain ⟨b, e, hb, he, hbe, hec, _⟩ := hv.row hi ci rfl
  unfold rowOf positions entriesAt
  rw [hb, he]
  simp only
  constructor
  · have : ∀ m, b + m ≤ ci.length → (ci.drop b).take m = (List.range' b m).filterMap (fun i => ci[i]?) := by
      intro m hm
      induction m with
      | zero => simp
      | succ m ih =>
        rw [List.take_succ, ih (by omega), List.range'_1_concat, List.filterMap_append]
        simp [List.getElem?_drop, List.getElem?_eq_getElem (show b + m < ci.length by omega)]
    exact this _ (by omega)
  · intro p hp
    rw [List.mem_range'_1] at hp
    omega

/-- the weights the code adds up, in terms of positions -/
theorem crossings_weights {g : MeshData W} {n : Nat} (hg : ValidData g n) {f2c : List Nat} (hf : f2c.length = n) (k l : Nat) :
    entriesAt g.weights (inCoarse f2c l ((cellsOf f2c k).flatMap (rowOf g.adjIdx g.adj))) =
      (crossings g.adjIdx g.adj f2c k l).filterMap (fun p => (g.adj[p]?).bind (fun j => g.weights[j]?)) ∧
    (inCoarse f2c l ((cellsOf f2c k).flatMap (rowOf g.adjIdx g.adj)) ≠ [] ↔ crossings g.adjIdx g.adj f2c k l ≠ []) := by
  unfold crossings inCoarse entriesAt
  have hc : ∀ i ∈ cellsOf f2c k, i < n := by
    intro i hi
    rw [mem_cellsOf] at hi
    rw [← hf]; exact (List.getElem?_eq_some_iff.1 hi).1
  generalize cellsOf f2c k = cs at hc
  have row : ∀ ps : List Nat, (∀ p ∈ ps, p < g.adj.length) →
      ((entriesAt g.adj ps).filter (fun j => decide (f2c[j]? = some l))).filterMap (fun i => g.weights[i]?) =
        (ps.filter (fun p => decide ((g.adj[p]?).bind (fun j => f2c[j]?) = some l))).filterMap
          (fun p => (g.adj[p]?).bind (fun j => g.weights[j]?)) ∧
      ((entriesAt g.adj ps).filter (fun j => decide (f2c[j]? = some l)) = [] ↔
        ps.filter (fun p => decide ((g.adj[p]?).bind (fun j => f2c[j]?) = some l)) = []) := by
    intro ps
    induction ps with
    | nil => intro _; simp [entriesAt]
    | cons p ps ih =>
      intro hp
      obtain ⟨ih1, ih2⟩ := ih (fun q hq => hp q (List.mem_cons_of_mem _ hq))
      have hpl := hp p (by simp)
      have e : entriesAt g.adj (p :: ps) = g.adj[p] :: entriesAt g.adj ps := by
        simp [entriesAt, List.getElem?_eq_getElem hpl]
      rw [e, List.filter_cons, List.filter_cons]
      simp only [List.getElem?_eq_getElem hpl, Option.bind_some]
      by_cases h : f2c[g.adj[p]]? = some l
      · simp only [h, decide_true, if_true, List.filterMap_cons, List.getElem?_eq_getElem hpl, Option.bind_some, ih1]
        simp
      · simp only [h, decide_false, Bool.false_eq_true, if_false]
        exact ⟨ih1, ih2⟩
  induction cs with
  | nil => simp
  | cons i cs ih =>
    obtain ⟨ih1, ih2⟩ := ih (fun j hj => hc j (List.mem_cons_of_mem _ hj))
    obtain ⟨h1, h2⟩ := rowOf_positions hg.crs (hc i (by simp))
    obtain ⟨r1, r2⟩ := row _ h2
    simp only [List.flatMap_cons, List.filter_append, List.filterMap_append]
    rw [ih1, h1, r1]
    refine ⟨rfl, ?_⟩
    simp only [ne_eq, List.append_eq_nil_iff, not_and] at ih2 ⊢
    rw [r2]
    constructor
    · intro h h3; exact ih2.1 (h h3)
    · intro h h3; exact ih2.2 (h h3)

theorem crossings_ne {g : MeshData W} {n : Nat} (hg : ValidData g n) {f2c : List Nat} (hf : f2c.length = n) (k l : Nat) :
    inCoarse f2c l ((cellsOf f2c k).flatMap (rowOf g.adjIdx g.adj)) ≠ [] ↔
      ∃ i j : Nat, f2c[i]? = some k ∧ f2c[j]? = some l ∧ Adj g.adjIdx g.adj i j := by
  rw [List.ne_nil_iff_exists_cons]
  constructor
  · rintro ⟨j, t, h⟩
    have : j ∈ inCoarse f2c l ((cellsOf f2c k).flatMap (rowOf g.adjIdx g.adj)) := by rw [h]; simp
    unfold inCoarse at this
    rw [List.mem_filter, List.mem_flatMap] at this
    obtain ⟨⟨i, hi, hij⟩, h2⟩ := this
    exact ⟨i, j, mem_cellsOf.1 hi, by simpa using h2, adj_iff_rowOf.2 hij⟩
  · rintro ⟨i, j, hi, hj, hij⟩
    have : j ∈ inCoarse f2c l ((cellsOf f2c k).flatMap (rowOf g.adjIdx g.adj)) := by
      unfold inCoarse
      rw [List.mem_filter, List.mem_flatMap]
      exact ⟨⟨i, mem_cellsOf.2 hi, adj_iff_rowOf.1 hij⟩, by simpa using hj⟩
    exact List.exists_cons_of_ne_nil (List.ne_nil_of_mem this)

section
variable {g : MeshData W} {n : Nat} {f2c : List Nat} {z : Int} {D N : Nat} {rows : List (NMap W)} {out : MeshData W}

theorem CoarseOk.keys (hg : ValidData g n) (hf : f2c.length = n) (h : CoarseOk g f2c z D N rows out) {k : Nat}
    {m : NMap W} (hm : rows[k]? = some m) (l : Nat) :
    l ∈ m.keys ↔ k ≠ l ∧ ∃ i j : Nat, f2c[i]? = some k ∧ f2c[j]? = some l ∧ Adj g.adjIdx g.adj i j := by
  rw [NMap.mem_keys, h.row k m hm l, ← crossings_ne hg hf]
  split
  · rename_i h1; simp [h1, Ne.symm h1.1]
  · rename_i h1
    simp only [reduceCtorEq, exists_false, false_iff]
    rintro ⟨h2, h3⟩; exact h1 ⟨Ne.symm h2, h3⟩

theorem CoarseOk.adj_iff (hg : ValidData g n) (hf : f2c.length = n) (hN : ∀ x ∈ f2c, x < N)
    (h : CoarseOk g f2c z D N rows out) (k l : Nat) :
    Adj out.adjIdx out.adj k l ↔
      k ≠ l ∧ ∃ i j : Nat, f2c[i]? = some k ∧ f2c[j]? = some l ∧ Adj g.adjIdx g.adj i j := by
  rw [h.adjIdx, h.adj, enc_adj]
  constructor
  · rintro ⟨r, hr, hl⟩
    rw [List.getElem?_map, Option.map_eq_some_iff] at hr
    obtain ⟨m, hm, rfl⟩ := hr
    exact (h.keys hg hf hm l).1 hl
  · rintro ⟨h1, h2⟩
    obtain ⟨i, j, hi, _⟩ := id h2
    have hk : k < rows.length := by rw [h.len]; exact hN k (List.mem_of_getElem? hi)
    have hm := List.getElem?_eq_getElem hk
    exact ⟨_, by rw [List.getElem?_map, hm]; rfl, (h.keys hg hf hm l).2 ⟨h1, h2⟩⟩

theorem CoarseOk.crs (hg : ValidData g n) (hf : f2c.length = n) (hN : ∀ x ∈ f2c, x < N)
    (h : CoarseOk g f2c z D N rows out) : ValidCRS N out.adjIdx out.adj := by
  rw [h.adjIdx, h.adj]
  have := enc_crs (ls := rows.map NMap.keys) ?_
  · rwa [List.length_map, h.len] at this
  · intro r hr l hl
    obtain ⟨k, hk⟩ := List.mem_iff_getElem?.1 hr
    rw [List.getElem?_map, Option.map_eq_some_iff] at hk
    obtain ⟨m, hm, rfl⟩ := hk
    obtain ⟨_, i, j, _, hj, _⟩ := (h.keys hg hf hm l).1 hl
    rw [List.length_map, h.len]
    exact hN l (List.mem_of_getElem? hj)

theorem CoarseOk.uniq (h : CoarseOk g f2c z D N rows out) : UniqueRows out.adjIdx out.adj := by
  rw [h.adjIdx, h.adj]
  refine enc_uniq ?_
  intro r hr
  obtain ⟨m, _, rfl⟩ := List.mem_map.1 hr
  exact m.keys_nodup

theorem CoarseOk.sorted (h : CoarseOk g f2c z D N rows out) (k : Nat) : (rowOf out.adjIdx out.adj k).Pairwise (· < ·) := by
  rw [h.adjIdx, h.adj]
  by_cases hk : k < (rows.map NMap.keys).length
  · have hr := List.getElem?_eq_getElem hk
    obtain ⟨h4, h5⟩ := offsets_block hr
    have e : rowOf (offsets 0 (rows.map NMap.keys)) (rows.map NMap.keys).flatten k = (rows.map NMap.keys)[k] := by
      unfold rowOf
      rw [h4, h5]
      simp only [Nat.add_sub_cancel_left]
      apply List.ext_getElem?
      intro q
      rw [List.getElem?_take]
      split
      · rename_i hq
        rw [List.getElem?_drop, flatten_getElem _ k q _ hr hq]
      · rw [List.getElem?_eq_none (by omega)]
    rw [e]
    obtain ⟨m, _, hm⟩ := List.mem_map.1 (List.getElem_mem hk)
    rw [← hm]
    exact m.keys_sorted
  · unfold rowOf
    have : (offsets 0 (rows.map NMap.keys))[k + 1]? = none := by
      apply List.getElem?_eq_none
      rw [offsets_length]; omega
    rw [this]
    split
    · simp_all
    · exact List.Pairwise.nil

theorem CoarseOk.weights_length (h : CoarseOk g f2c z D N rows out) : out.weights.length = out.adj.length := by
  rw [h.weights, h.adj, List.length_flatten, List.length_flatten, List.map_map, List.map_map]
  congr 1
  apply List.map_congr_left
  intro m _
  simp [NMap.keys]

/-- the weight at a position of the coarse graph -/
theorem CoarseOk.weight (hg : ValidData g n) (hf : f2c.length = n) (h : CoarseOk g f2c z D N rows out) {k l p : Nat}
    (hp : p ∈ positions out.adjIdx k) (hl : out.adj[p]? = some l) :
    out.weights[p]? = some (sumW ((crossings g.adjIdx g.adj f2c k l).filterMap
      (fun p => (g.adj[p]?).bind (fun j => g.weights[j]?)))) := by
  unfold positions at hp
  split at hp
  case h_2 => cases hp
  rename_i b e hb he
  rw [h.adjIdx] at hb he
  rw [List.mem_range'_1] at hp
  have hk : k < rows.length := by
    have := (List.getElem?_eq_some_iff.1 he).1
    rw [offsets_length, List.length_map] at this; omega
  have hm := List.getElem?_eq_getElem hk
  have hr : (rows.map NMap.keys)[k]? = some rows[k].keys := by rw [List.getElem?_map, hm]; rfl
  have hv : (rows.map (fun m => m.entries.map Prod.snd))[k]? = some (rows[k].entries.map Prod.snd) := by
    rw [List.getElem?_map, hm]; rfl
  obtain ⟨h4, h5⟩ := offsets_block hr
  rw [h4] at hb; rw [h5] at he
  cases hb; cases he
  have hlen : ((rows.map NMap.keys).take k).flatten.length =
      ((rows.map (fun m => m.entries.map Prod.snd)).take k).flatten.length := by
    rw [← List.map_take, ← List.map_take, List.length_flatten, List.length_flatten, List.map_map, List.map_map]
    congr 1
    apply List.map_congr_left
    intro m _
    simp [NMap.keys]
  have hkl : rows[k].keys.length = rows[k].entries.length := by simp [NMap.keys]
  generalize hq : p - ((rows.map NMap.keys).take k).flatten.length = q at *
  have e1 := flatten_getElem _ k q _ hr (by omega)
  have e2 := flatten_getElem _ k q _ hv (by rw [List.length_map]; omega)
  rw [← hlen] at e2
  rw [show ((rows.map NMap.keys).take k).flatten.length + q = p by omega] at e1 e2
  rw [← h.adj, hl] at e1
  rw [← h.weights] at e2
  rw [e2]
  have hqe : q < rows[k].entries.length := by omega
  have hmem : (rows[k].entries[q]) ∈ rows[k].entries := List.getElem_mem hqe
  have e3 : rows[k].entries[q].1 = l := by
    have : rows[k].keys[q]? = some rows[k].entries[q].1 := by
      simp [NMap.keys, List.getElem?_eq_getElem hqe]
    rw [← e1] at this
    exact (Option.some.inj this).symm
  have e4 : rows[k].find? l = some rows[k].entries[q].2 := by
    rw [NMap.find?_eq_some, ← e3]; exact hmem
  rw [h.row k _ hm l] at e4
  split at e4
  · rw [(crossings_weights hg hf k l).1] at e4
    simp only [List.getElem?_map, List.getElem?_eq_getElem hqe, Option.map_some]
    exact e4.symm
  · cases e4
end

end CoMMA
