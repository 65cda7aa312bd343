import Verif.Model.Connectivity
import Verif.Lemmas.Graph
import Verif.Lemmas.Ok
/-! # Lemmas on the depth first search -/

namespace CoMMA

/-- number of marks not set -/
def unmarked (vis : List Bool) : Nat := vis.countP (fun b => !b)

theorem unmarked_le {a b : List Bool} (hl : b.length = a.length)
    (h : ∀ x : Nat, a[x]? = some true → b[x]? = some true) : unmarked b ≤ unmarked a := by
  induction a generalizing b with
  | nil => have : b = [] := by simpa using hl
           subst this; exact Nat.le_refl _
  | cons u a ih =>
    cases b with
    | nil => simp at hl
    | cons v b =>
      have h0 := h 0
      have := ih (b := b) (by simpa using hl) (fun x hx => by simpa using h (x + 1) (by simpa using hx))
      unfold unmarked at this ⊢
      cases u <;> cases v <;> simp_all
      omega

theorem unmarked_set {a : List Bool} {i : Nat} (h : i < a.length) :
    unmarked (a.set i true) + (if a[i] then 0 else 1) = unmarked a := by
  induction a generalizing i with
  | nil => simp at h
  | cons u a ih =>
    cases i with
    | zero => unfold unmarked; cases u <;> simp
    | succ i =>
      have := ih (i := i) (by simpa using h)
      unfold unmarked at this ⊢
      cases u <;> simp_all <;> omega

/-- `x` can be reached from `i` -/
def Reach (rp ci : List Nat) (i x : Nat) : Prop := ∃ k, Walk (Adj rp ci) k i x

/-- effect of a search from `i` on the marks -/
structure Searched (rp ci : List Nat) (vis : List Bool) (i : Nat) (vis' : List Bool) : Prop where
  len : vis'.length = vis.length
  mono : ∀ x : Nat, vis[x]? = some true → vis'[x]? = some true
  start : vis'[i]? = some true
  reach : ∀ x : Nat, vis'[x]? = some true → vis[x]? = some true ∨ Reach rp ci i x
  closed : ∀ x : Nat, vis'[x]? = some true → (vis[x]? ≠ some true ∨ x = i) →
    ∀ y, Adj rp ci x y → vis'[y]? = some true

theorem dfsMarks_ok {n : Nat} {rp ci : List Nat} (hv : ValidCRS n rp ci) :
    ∀ (fuel : Nat) (vis : List Bool) (i : Nat), i < n → n ≤ vis.length →
      unmarked vis + (if vis[i]? = some true then 1 else 0) ≤ fuel →
      Ok (dfsMarks rp ci fuel vis i) (Searched rp ci vis i) := by
  intro fuel
  induction fuel with
  | zero =>
    intro vis i hi hn hf
    have hlt : i < vis.length := by omega
    have := unmarked_set hlt
    by_cases hb : vis[i] = true
    · simp [hlt, hb] at hf
    · rw [if_neg hb] at this; omega
  | succ fuel ih =>
    intro vis i hi hn hf
    have hlt : i < vis.length := by omega
    unfold dfsMarks
    rw [wr_of_lt hlt, hv.rowM_eq hi _ rfl]
    simp only [ok_bind]
    have hset := unmarked_set hlt
    have hf1 : unmarked (vis.set i true) ≤ fuel := by
      by_cases hb : vis[i] = true
      · simp [hlt, hb] at hf hset; omega
      · rw [if_neg hb] at hset; omega
    have hget : ∀ x : Nat, (vis.set i true)[x]? = some true ↔ x = i ∨ vis[x]? = some true := by
      intro x
      rw [List.getElem?_set]
      by_cases hx : i = x
      · subst hx; simp [hlt]
      · rw [if_neg hx]
        constructor
        · exact Or.inr
        · rintro (h | h)
          · exact absurd h.symm hx
          · exact h
    refine Ok.mono (Ok.foldlM_prefix (I := fun pre (v : List Bool) =>
      v.length = vis.length ∧
      (∀ x : Nat, (vis.set i true)[x]? = some true → v[x]? = some true) ∧
      (∀ x ∈ pre, v[x]? = some true) ∧
      (∀ x : Nat, v[x]? = some true → vis[x]? = some true ∨ Reach rp ci i x) ∧
      (∀ x : Nat, v[x]? = some true → vis[x]? ≠ some true → x ≠ i →
        ∀ y, Adj rp ci x y → v[y]? = some true)) ?_ ?_) ?_
    · refine ⟨by simp, fun x h => h, by simp, ?_, ?_⟩
      · intro x hx
        rcases (hget x).1 hx with rfl | h
        · exact .inr ⟨0, .nil _⟩
        · exact .inl h
      · intro x hx h1 h2
        rcases (hget x).1 hx with h | h
        · exact absurd h h2
        · exact absurd h h1
    · intro pre j post v hl hI
      obtain ⟨l1, l2, l3, l4, l5⟩ := hI
      have hadj : Adj rp ci i j := (hv.mem_rowL hi).1 (by rw [hl]; simp)
      have hj : j < n := (hv.adj_lt hadj).2
      have hjl : j < v.length := by omega
      rw [rd_of_lt hjl]
      simp only [ok_bind]
      by_cases hb : v[j] = true
      · rw [if_pos hb]
        have hbj : v[j]? = some true := by simp [hjl, hb]
        refine ⟨l1, l2, ?_, l4, l5⟩
        intro x hx
        rcases List.mem_append.1 hx with h | h
        · exact l3 x h
        · rw [List.mem_singleton.1 h]; exact hbj
      · rw [if_neg hb]
        have hbj : v[j]? ≠ some true := by simp [hjl, hb]
        have hcnt := unmarked_le (a := vis.set i true) (b := v) (by simp [l1]) l2
        refine Ok.mono (ih v j hj (by omega) (by rw [if_neg hbj]; omega)) ?_
        intro v' hS
        refine ⟨hS.len.trans l1, fun x hx => hS.mono x (l2 x hx), ?_, ?_, ?_⟩
        · intro x hx
          rcases List.mem_append.1 hx with h | h
          · exact hS.mono x (l3 x h)
          · rw [List.mem_singleton.1 h]; exact hS.start
        · intro x hx
          rcases hS.reach x hx with h | ⟨k, h⟩
          · exact l4 x h
          · exact .inr ⟨_, (Walk.single hadj).trans h⟩
        · intro x hx h1 h2 y hy
          by_cases hxv : v[x]? = some true
          · exact hS.mono y (l5 x hxv h1 h2 y hy)
          · exact hS.closed x hx (.inl hxv) y hy
    · rintro v ⟨l1, l2, l3, l4, l5⟩
      refine ⟨l1, fun x hx => l2 x ((hget x).2 (.inr hx)), l2 i ((hget i).2 (.inl rfl)), l4, ?_⟩
      intro x hx h y hy
      by_cases hxi : x = i
      · subst hxi; exact l3 y ((hv.mem_rowL hi).2 hy)
      · rcases h with h | h
        · exact l5 x hx h hxi y hy
        · exact absurd h hxi

theorem unmarked_le_length (vis : List Bool) : unmarked vis ≤ vis.length := List.countP_le_length

/-- state between calls: the marks are the cells reached from the sources -/
structure Marked (n : Nat) (rp ci : List Nat) (src : Nat → Prop) (g : VGraph) : Prop where
  nbC : g.nbC = n
  rowPtr : g.rowPtr = rp
  colInd : g.colInd = ci
  len : n ≤ g.visited.length
  marks : ∀ x : Nat, g.visited[x]? = some true ↔ ∃ s, src s ∧ s < n ∧ Reach rp ci s x

theorem Reach.lt {n : Nat} {rp ci : List Nat} (hv : ValidCRS n rp ci) {i x : Nat} (hi : i < n)
    (h : Reach rp ci i x) : x < n := by
  obtain ⟨k, hw⟩ := h
  cases hw with
  | nil => exact hi
  | step _ ha => exact (hv.adj_lt ha).2

theorem Marked.dfs {n : Nat} {rp ci : List Nat} (hv : ValidCRS n rp ci) {src : Nat → Prop} {g : VGraph}
    (h : Marked n rp ci src g) {i : Nat} (hi : i < n) :
    Ok (g.dfs i) (Marked n rp ci (fun s => src s ∨ s = i)) := by
  unfold VGraph.dfs
  rw [h.rowPtr, h.colInd]
  refine Ok.bind (dfsMarks_ok hv _ _ i hi h.len ?_) ?_
  · have := unmarked_le_length g.visited
    split <;> omega
  · intro v hS
    refine ⟨h.nbC, rfl, rfl, by simpa [hS.len] using h.len, ?_⟩
    have hcl : ∀ x y : Nat, v[x]? = some true → Adj rp ci x y → v[y]? = some true := by
      intro x y hx hy
      by_cases hxo : g.visited[x]? = some true
      · obtain ⟨s, h1, h2, k, h3⟩ := (h.marks x).1 hxo
        exact hS.mono y ((h.marks y).2 ⟨s, h1, h2, k + 1, h3.step hy⟩)
      · exact hS.closed x hx (.inl hxo) y hy
    intro x
    constructor
    · intro hx
      rcases hS.reach x hx with h' | h'
      · obtain ⟨s, h1, h2, h3⟩ := (h.marks x).1 h'
        exact ⟨s, .inl h1, h2, h3⟩
      · exact ⟨i, .inr rfl, hi, h'⟩
    · rintro ⟨s, hs, hsn, k, hw⟩
      have hsv : v[s]? = some true := by
        rcases hs with h' | rfl
        · exact hS.mono s ((h.marks s).2 ⟨s, h', hsn, 0, .nil _⟩)
        · exact hS.start
      clear hs hsn
      induction hw with
      | nil => exact hsv
      | step _ hr ih => exact hcl _ _ (ih hsv) hr

theorem allVisited_ok {vis : List Bool} : ∀ (l : List Nat), (∀ i ∈ l, i < vis.length) →
    Ok (allVisited vis l) (fun b => b = true ↔ ∀ i ∈ l, vis[i]? = some true)
  | [], _ => by simp [allVisited]
  | i :: l, h => by
    have hi := h i (by simp)
    unfold allVisited
    rw [rd_of_lt hi]
    simp only [ok_bind]
    by_cases hb : vis[i] = true
    · rw [if_pos hb]
      refine Ok.mono (allVisited_ok l (fun j hj => h j (by simp [hj]))) ?_
      intro b hb'
      rw [hb']; simp [hi, hb]
    · rw [if_neg hb]; simp [hi, hb]

theorem Marked.append {n : Nat} {rp ci : List Nat} {src : Nat → Prop} {g : VGraph}
    (h : Marked n rp ci src g) :
    Marked n rp ci src { g with visited := g.visited ++ List.replicate g.nbC false } := by
  refine ⟨h.nbC, h.rowPtr, h.colInd, by simp; have := h.len; omega, ?_⟩
  intro x
  rw [← h.marks x, List.getElem?_append]
  split
  · exact Iff.rfl
  · rename_i hx
    rw [List.getElem?_replicate]
    constructor
    · intro h'; split at h' <;> simp at h'
    · intro h'; rw [List.getElem?_eq_none (by omega)] at h'; cases h'

/-- a check on a graph with at least two cells -/
theorem Marked.check {n : Nat} {rp ci : List Nat} (hv : ValidCRS n rp ci) {src : Nat → Prop} {g : VGraph}
    (h : Marked n rp ci src g) (hn : n ≠ 1) {c : Nat} (hc : ci[0]? = some c) :
    Ok g.check (fun r => Marked n rp ci (fun s => src s ∨ s = c) r.2 ∧
      (r.1 = true ↔ ∀ x, x < n → ∃ s, (src s ∨ s = c) ∧ s < n ∧ Reach rp ci s x)) := by
  unfold VGraph.check
  have ha := h.append
  simp only
  rw [if_neg (by rw [h.nbC]; exact hn)]
  have hc' : g.colInd[0]? = some c := by rw [h.colInd]; exact hc
  rw [rd_ok.2 hc']
  simp only [ok_bind]
  have hcn : c < n := hv.range c (List.mem_of_getElem? hc)
  refine Ok.bind (ha.dfs hv hcn) ?_
  intro g' hg'
  refine Ok.bind (allVisited_ok (vis := g'.visited) (List.range g'.nbC) ?_) ?_
  · intro i hi
    have := hg'.len
    have := List.mem_range.1 hi
    have := hg'.nbC
    omega
  · intro b hb
    refine ⟨hg', ?_⟩
    rw [hb, hg'.nbC]
    constructor
    · intro h' x hx
      exact (hg'.marks x).1 (h' x (List.mem_range.2 hx))
    · intro h' x hx
      exact (hg'.marks x).2 (h' x (List.mem_range.1 hx))

theorem Marked.new {n : Nat} {rp ci : List Nat} : Marked n rp ci (fun _ => False) (VGraph.new n rp ci) := by
  refine ⟨rfl, rfl, rfl, by simp [VGraph.new], ?_⟩
  intro x
  constructor
  · intro h
    simp only [VGraph.new, List.getElem?_replicate] at h
    split at h <;> simp at h
  · rintro ⟨_, h, _⟩; exact h.elim

end CoMMA
