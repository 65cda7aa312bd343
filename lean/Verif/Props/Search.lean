import Verif.Lemmas.Search
import Verif.Spec.Examples
/-! # C28: neighbourhood search -/

namespace CoMMA

variable {W : Type}

/-- **C28** From any non-empty set of seeds of a valid graph, for any agglomeration
status, orders and iteration order of the unordered maps, the search returns; the
dictionary holds exactly the cells at breadth-first distance `1 .. order-1` from the
seeds through cells that are not agglomerated, with that distance.  Either it holds
every reachable cell, or at least the requested order was explored and the seeds and
the dictionary have at least `max_card` cells together.  It does not go further than
needed: the requested order was not exceeded, or the order before held fewer than
`max_card` cells with the seeds. -/
theorem C28_neighbourhood {g : Graph W} (h : ValidCRS g.nbC g.rowPtr g.colInd) (hh : Hash) {agg : List Bool}
    (ha : agg.length = g.nbC) {seeds : NSet} (hs : ∀ x ∈ seeds, x < g.nbC) (hne : 0 < seeds.card)
    (nbOrder : Nat) {maxCard : Nat} (hmc : 1 < maxCard) :
    ∃ order d, g.neighbourhood hh seeds nbOrder maxCard agg = .ok (order, d) ∧
      (∀ x k, d.find? x = some k ↔
        IsDistance (FreeAdj g.rowPtr g.colInd agg) (· ∈ seeds) x k ∧ 0 < k ∧ k < order) ∧
      ((∀ x, ReachableFrom (FreeAdj g.rowPtr g.colInd agg) (· ∈ seeds) x → x ∈ seeds ∨ ∃ k, d.find? x = some k) ∨
        (nbOrder < order ∧ maxCard ≤ seeds.card + d.size)) ∧
      (order ≤ nbOrder + 1 ∨ FewBefore (FreeAdj g.rowPtr g.colInd agg) (· ∈ seeds) order maxCard) := by
  obtain ⟨⟨order, d⟩, h1, h2, h3, h4⟩ := (neighbourhood_spec h hh ha hs hne nbOrder hmc).eq
  refine ⟨order, d, h1, h2, ?_, h4⟩
  rcases h3 with h3 | h3
  · refine Or.inl (fun x hx => ?_)
    obtain ⟨k, hk⟩ := hx.dist
    by_cases hk0 : k = 0
    · subst hk0; exact Or.inl (IsDistance.zero.1 hk)
    · exact Or.inr ⟨k, (h2 x k).2 ⟨hk, by omega, h3 x k hk⟩⟩
  · exact Or.inr h3

/-- **C28** (corollary used by the agglomeration) If fewer than `max_card - 1` cells come back
for one seed, they are all the cells reachable from it. -/
theorem C28_exhaustive {g : Graph W} (h : ValidCRS g.nbC g.rowPtr g.colInd) (hh : Hash) {agg : List Bool}
    (ha : agg.length = g.nbC) {seed : Nat} (hs : seed < g.nbC)
    (nbOrder : Nat) {maxCard : Nat} (hmc : 1 < maxCard) {order : Nat} {d : NMap Nat}
    (hr : g.neighbourhood hh (NSet.single seed) nbOrder maxCard agg = .ok (order, d))
    (hd : d.size < maxCard - 1) :
    ∀ x, ReachableFrom (FreeAdj g.rowPtr g.colInd agg) (· = seed) x → x = seed ∨ ∃ k, d.find? x = some k := by
  have hmem : ∀ x, x ∈ NSet.single seed ↔ x = seed := by intro x; simp [NSet.single]
  have hcard : (NSet.single seed).card = 1 := rfl
  obtain ⟨order', d', h1, _, h3, _⟩ := C28_neighbourhood h hh ha (seeds := NSet.single seed)
    (by intro x hx; rw [hmem] at hx; omega) (by omega) nbOrder hmc
  rw [hr] at h1; cases h1
  rcases h3 with h3 | h3
  · intro x ⟨k, w, hw, hk⟩
    rcases h3 x ⟨k, w, (hmem w).2 hw, hk⟩ with h4 | h4
    · exact Or.inl ((hmem x).1 h4)
    · exact Or.inr h4
  · omega

/-- a path of four cells -/
def exPath : Graph Int where
  nbC := 4
  rowPtr := [0, 1, 3, 5, 6]
  colInd := [1, 0, 2, 1, 3, 2]
  values := [1, 1, 1, 1, 1, 1]
  volumes := [1, 1, 1, 1]
  centers := [[0, 0], [1, 0], [2, 0], [3, 0]]
  nBnd := [1, 0, 0, 1]
  dim := 2
  compliant := NSet.ofList [0, 1, 2, 3]

theorem exPath_valid : ValidCRS exPath.nbC exPath.rowPtr exPath.colInd := by
  refine ⟨rfl, ?_, rfl, by decide⟩
  intro i b e hb he
  match i with
  | 0 | 1 | 2 | 3 => simp [exPath] at hb he; omega
  | i + 4 => simp [exPath] at he

/-- the hypotheses of C28 are met: cell 3 is agglomerated, the search from 0 gives 1 and 2 -/
example : exPath.neighbourhood Hash.rev (NSet.single 0) 1 4 [false, false, false, true]
    = .ok (3, (NMap.empty.insert 1 1).insert 2 2) := by decide +kernel

end CoMMA
