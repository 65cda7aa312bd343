import Verif.Lemmas.Wall
/-! # C13, C14: wall distance and cell filter -/

namespace CoMMA

/-- **C13** On every valid graph and every list of wall cells (with or without
repetitions) the wall distance returns; the value of a cell is the length of a shortest
walk from the wall to the cell, and -1 exactly when the cell cannot be reached from
the wall. -/
theorem C13_wall_distance {n : Nat} {rowPtr colInd wall : List Nat} (h : ValidCRS n rowPtr colInd)
    (hw : ∀ w ∈ wall, w < n) :
    ∃ dist, wallDistance rowPtr colInd wall = .ok dist ∧ dist.length = n ∧ ∀ x < n,
      (∀ d : Nat, dist[x]? = some (d : Int) ↔ IsDistance (Adj rowPtr colInd) (· ∈ wall) x d) ∧
      (dist[x]? = some (-1) ↔ ¬ ReachableFrom (Adj rowPtr colInd) (· ∈ wall) x) := by
  have hmain : Ok (wallDistance rowPtr colInd wall) (WInv n rowPtr colInd wall []) := by
    unfold wallDistance
    have hn : rowPtr.length - 1 = n := by rw [h.rows]; omega
    simp only [hn]
    refine (wallInit_spec (rowPtr := rowPtr) (colInd := colInd) hw).bind (fun st ⟨h1, h2⟩ => ?_)
    exact wallLoop_spec h _ h1 h2
  obtain ⟨dist, hd, hI⟩ := hmain.eq
  refine ⟨dist, hd, hI.len, fun x hx => ?_⟩
  have hget : ∀ y < n, dist[y]? = some (dv dist y) := by
    intro y hy
    have hlt : y < dist.length := by rw [hI.len]; exact hy
    simp [dv, hlt]
  -- every walk from the wall gives an upper bound
  have hub : ∀ k w, w ∈ wall → ∀ y, Walk (Adj rowPtr colInd) k w y → y < n ∧ 0 ≤ dv dist y ∧ dv dist y ≤ k := by
    intro k w hww y hwk
    induction hwk with
    | nil x => rw [hI.walls x hww]; exact ⟨hw x hww, Int.le_refl _, by omega⟩
    | @step k x y z hxy hyz ih =>
      obtain ⟨h1, h2, h3⟩ := ih hww
      have h4 := hI.closed y h1 h2 (by simp) z hyz
      exact ⟨(h.adj_lt hyz).2, h4.1, by have := h4.2; push_cast; omega⟩
  have hdist : 0 ≤ dv dist x → IsDistance (Adj rowPtr colInd) (· ∈ wall) x (dv dist x).toNat := by
    intro h0
    refine ⟨hI.sound x hx h0, fun k w hww hwk => ?_⟩
    have := (hub k w hww x hwk).2.2
    omega
  rw [hget x hx]
  constructor
  · intro d
    constructor
    · intro he
      have he : dv dist x = d := by simpa using he
      have := hdist (by omega)
      rwa [he, Int.toNat_natCast] at this
    · intro hD
      obtain ⟨w, hww, hwk⟩ := hD.1
      obtain ⟨_, h2, h3⟩ := hub d w hww x hwk
      obtain ⟨w', hw', hwk'⟩ := (hdist h2).1
      have := hD.2 _ w' hw' hwk'
      have : dv dist x = d := by omega
      rw [this]
  · constructor
    · intro he
      have he : dv dist x = -1 := by simpa using he
      rintro ⟨k, w, hww, hwk⟩
      have := (hub k w hww x hwk).2.1
      omega
    · intro hn
      have := hI.neg x hx
      by_cases h0 : 0 ≤ dv dist x
      · obtain ⟨w, hww, hwk⟩ := hI.sound x hx h0
        exact absurd ⟨_, w, hww, hwk⟩ hn
      · rw [show dv dist x = -1 by omega]

/-- a path of four cells and an isolated one, wall at cell 0 given twice -/
example : ValidCRS 5 [0, 1, 3, 5, 6, 6] [1, 0, 2, 1, 3, 2] ∧
    wallDistance [0, 1, 3, 5, 6, 6] [1, 0, 2, 1, 3, 2] [0, 0] = .ok [0, 1, 2, 3, -1] := by
  refine ⟨⟨rfl, ?_, rfl, by decide⟩, by decide +kernel⟩
  intro i b e hb he
  match i with
  | 0 | 1 | 2 | 3 | 4 => simp at hb he; omega
  | i + 5 => simp at he

/-- number of edges of a cell: row length plus boundary faces -/
def EdgeCount (indices : List Nat) (nBnd : List Int) (c : Nat) (k : Int) : Prop :=
  ∃ (b e : Nat) (f : Int), indices[c]? = some b ∧ indices[c + 1]? = some e ∧ nBnd[c]? = some f ∧ k = e - b + f

/-- What the filter computes, for any input: nothing if no positive value is allowed,
else the cells whose number of edges is in the allowed set (even non-positive), in
increasing order. -/
theorem filterCells_exact {indices : List Nat} {nBnd allowed : List Int}
    (hl : nBnd.length < indices.length) :
    ∃ r, filterCells indices nBnd allowed = .ok r ∧ r.Pairwise (· < ·) ∧
      ∀ c, c ∈ r ↔ (∃ a ∈ allowed, 0 < a) ∧ ∃ k ∈ allowed, EdgeCount indices nBnd c k := by
  unfold filterCells
  simp only
  by_cases ht : (allowed.filter (fun a => decide (0 < a))).isEmpty = true
  · rw [if_pos ht]
    refine ⟨[], rfl, by simp, fun c => ?_⟩
    simp only [List.not_mem_nil, false_iff, not_and]
    rintro ⟨a, ha, hpos⟩
    simp at ht
    have := ht a ha
    omega
  · rw [if_neg ht]
    have hpos : ∃ a ∈ allowed, 0 < a := by
      simp at ht
      obtain ⟨a, ha, h⟩ := ht
      exact ⟨a, ha, h⟩
    have : Ok ((List.range nBnd.length).foldlM (fun filtered c => do
        let e ← rd indices (c + 1)
        let b ← rd indices c
        let k ← rd nBnd c
        pure (if allowed.contains ((e : Int) - (b : Int) + k) then filtered ++ [c] else filtered)) [])
        (fun r => r.Pairwise (· < ·) ∧ ∀ c, c ∈ r ↔ c ∈ List.range nBnd.length ∧ ∃ k ∈ allowed, EdgeCount indices nBnd c k) := by
      refine Ok.foldlM_prefix (I := fun pre (r : List Nat) => r.Pairwise (· < ·) ∧
        ∀ c, c ∈ r ↔ c ∈ pre ∧ ∃ k ∈ allowed, EdgeCount indices nBnd c k) ⟨by simp, by simp⟩ ?_
      rintro pre c post r hsplit ⟨h1, h2⟩
      have hc : c < nBnd.length := by
        have : c ∈ List.range nBnd.length := by rw [hsplit]; simp
        simpa using this
      have hlt : ∀ x ∈ pre, x < c := by
        have := List.pairwise_lt_range (n := nBnd.length)
        rw [hsplit, List.pairwise_append] at this
        exact fun x hx => this.2.2 x hx c (by simp)
      have hc1 : c + 1 < indices.length := by omega
      have hc0 : c < indices.length := by omega
      rw [rd_of_lt hc1, rd_of_lt hc0, rd_of_lt hc]
      simp only [ok_bind, Ok_pure]
      have hE : ∀ k, EdgeCount indices nBnd c k ↔ k = (indices[c + 1] : Int) - (indices[c] : Int) + nBnd[c] := by
        intro k
        unfold EdgeCount
        simp [hc0, hc1, hc]
      have hin : allowed.contains ((indices[c + 1] : Int) - (indices[c] : Int) + nBnd[c]) = true ↔
          ∃ k ∈ allowed, EdgeCount indices nBnd c k := by
        simp [hE]
      by_cases hcon : allowed.contains ((indices[c + 1] : Int) - (indices[c] : Int) + nBnd[c]) = true
      · rw [if_pos hcon]
        constructor
        · rw [List.pairwise_append]
          refine ⟨h1, by simp, ?_⟩
          intro a ha b hb
          simp only [List.mem_singleton] at hb; subst hb
          exact hlt a ((h2 a).1 ha).1
        · intro x
          simp only [List.mem_append, List.mem_singleton, h2]
          constructor
          · rintro (⟨h3, h4⟩ | rfl)
            · exact ⟨Or.inl h3, h4⟩
            · exact ⟨Or.inr rfl, hin.1 hcon⟩
          · rintro ⟨h3 | h3, h4⟩
            · exact Or.inl ⟨h3, h4⟩
            · exact Or.inr h3
      · rw [if_neg hcon]
        refine ⟨h1, fun x => ?_⟩
        rw [h2]
        simp only [List.mem_append, List.mem_singleton]
        constructor
        · rintro ⟨h3, h4⟩; exact ⟨Or.inl h3, h4⟩
        · rintro ⟨h3 | rfl, h4⟩
          · exact ⟨h3, h4⟩
          · exact absurd (hin.2 h4) hcon
    obtain ⟨r, hr, h1, h2⟩ := this.eq
    refine ⟨r, hr, h1, fun c => ?_⟩
    rw [h2]
    constructor
    · rintro ⟨_, h4⟩; exact ⟨hpos, h4⟩
    · rintro ⟨_, k, hk, hE⟩
      refine ⟨?_, k, hk, hE⟩
      obtain ⟨b, e, f, _, _, h5, _⟩ := hE
      simp only [List.mem_range]
      by_contra hcc
      rw [List.getElem?_eq_none (by omega)] at h5; cases h5

/-- **C14** (partial: every cell has at least one edge, or no non-positive value is in the
allowed set) The filter returns, in increasing order and once each, exactly the cells
whose number of edges (row length plus boundary faces) is an allowed positive value. -/
theorem C14_filter_partial {indices : List Nat} {nBnd allowed : List Int}
    (hl : nBnd.length < indices.length)
    (hpos : (∀ c k, EdgeCount indices nBnd c k → 0 < k) ∨ ∀ a ∈ allowed, 0 < a) :
    ∃ r, filterCells indices nBnd allowed = .ok r ∧ r.Pairwise (· < ·) ∧
      ∀ c, c ∈ r ↔ ∃ k ∈ allowed, 0 < k ∧ EdgeCount indices nBnd c k := by
  obtain ⟨r, h1, h2, h3⟩ := filterCells_exact (allowed := allowed) hl
  refine ⟨r, h1, h2, fun c => ?_⟩
  rw [h3]
  constructor
  · rintro ⟨_, k, hk, hE⟩
    rcases hpos with hpos | hpos
    · exact ⟨k, hk, hpos c k hE, hE⟩
    · exact ⟨k, hk, hpos k hk, hE⟩
  · rintro ⟨k, hk, hk0, hE⟩
    exact ⟨⟨k, hk, hk0⟩, k, hk, hE⟩

/-- the hypotheses are met by a graph with three cells, and the filter keeps two -/
example : (∀ a ∈ ([3, 4] : List Int), 0 < a) ∧ filterCells [0, 1, 3, 4] [2, 0, 3] [3, 4] = .ok [0, 2] :=
  ⟨by decide, by decide +kernel⟩

/-- **C14 fails without the restriction**: a cell with no edge is returned when 0 is in the
set beside a positive value. -/
theorem C14_counterexample :
    filterCells [0, 1, 2, 2] [0, 0, 0] [0, 5] = .ok [2] ∧
    ¬ ∃ k ∈ ([0, 5] : List Int), 0 < k ∧ EdgeCount [0, 1, 2, 2] [0, 0, 0] 2 k := by
  refine ⟨by decide +kernel, ?_⟩
  rintro ⟨k, hk, hk0, b, e, f, h1, h2, h3, h4⟩
  simp at h1 h2 h3
  subst h1; subst h2; subst h3
  simp at h4; omega

end CoMMA
