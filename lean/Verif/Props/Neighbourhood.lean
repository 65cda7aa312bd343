import Verif.Lemmas.Neighbourhood
import Verif.Lemmas.Search
import Verif.Props.Search
/-! # C26, C27: first-order neighbourhoods -/

namespace CoMMA

variable {W : Type} [Num W]

theorem nbhAfter_inv {g : Graph W} (h : ValidCRS g.nbC g.rowPtr g.colInd) {weights : List W}
    (hw : weights.length = g.nbC) (hu : UniqueRows g.rowPtr g.colInd ∨ LawfulLt W) (hd : 1 ≤ g.dim)
    (kind : NbhKind) (allowed : NSet) {cells : List Nat} (hc : ∀ x ∈ cells, x < g.nbC) :
    Ok (nbhAfter g kind weights allowed cells) (NInv g.rowPtr g.colInd weights kind g.dim allowed cells) := by
  unfold nbhAfter
  refine Ok.foldlM_prefix (NInv_new _ _ _ _ _ _) ?_
  intro pre x post nb hl hI
  have hx : x < g.nbC := hc x (by simp [hl])
  rw [neighs_eq h hx, ok_bind]
  exact hI.update h hw hu hd hx

/-- **C26** After any sequence of additions of cells of a valid graph, the candidates of
the extended neighbourhood are exactly the allowed cells adjacent to the coarse cell
and not in it, each once.  (Either each neighbour appears once in a row of the graph, or
the priorities are totally ordered.) -/
theorem C26_extended {g : Graph W} (h : ValidCRS g.nbC g.rowPtr g.colInd) {weights : List W}
    (hw : weights.length = g.nbC) (hu : UniqueRows g.rowPtr g.colInd ∨ LawfulLt W) (hd : 1 ≤ g.dim)
    (allowed : NSet) {cells : List Nat} (hc : ∀ x ∈ cells, x < g.nbC) :
    ∃ nb, nbhAfter g .extended weights allowed cells = .ok nb ∧ nb.cands.Nodup ∧
      ∀ x, x ∈ nb.cands ↔ InFront g.rowPtr g.colInd allowed cells x := by
  obtain ⟨nb, h1, h2⟩ := (nbhAfter_inv h hw hu hd .extended allowed hc).eq
  exact ⟨nb, h1, (h2.ext rfl).1, fun x => ⟨h2.sub x, (h2.ext rfl).2 x⟩⟩

/-- **C27** After any sequence of additions, the update of the pure-front neighbourhood
returns (in particular it never looks outside the stored fronts); its candidates are
allowed cells adjacent to the coarse cell and not in it; there is at least one whenever
such a cell exists; they are the whole front as long as at most `dimension` cells were
added; and they are distinct if the priorities are totally ordered. -/
theorem C27_pure_front {g : Graph W} (h : ValidCRS g.nbC g.rowPtr g.colInd) {weights : List W}
    (hw : weights.length = g.nbC) (hu : UniqueRows g.rowPtr g.colInd ∨ LawfulLt W) (hd : 1 ≤ g.dim)
    (allowed : NSet) {cells : List Nat} (hc : ∀ x ∈ cells, x < g.nbC) :
    ∃ nb, nbhAfter g .pureFront weights allowed cells = .ok nb ∧
      (∀ x ∈ nb.cands, InFront g.rowPtr g.colInd allowed cells x) ∧
      ((∃ x, InFront g.rowPtr g.colInd allowed cells x) → nb.cands ≠ []) ∧
      (cells.length ≤ g.dim → ∀ x, InFront g.rowPtr g.colInd allowed cells x → x ∈ nb.cands) ∧
      (LawfulLt W → nb.cands.Nodup) := by
  obtain ⟨nb, h1, h2⟩ := (nbhAfter_inv h hw hu hd .pureFront allowed hc).eq
  exact ⟨nb, h1, h2.sub, h2.ne, h2.early rfl, h2.distinct⟩

/-- the hypotheses are met: on the path 0-1-2-3 with cells 1 and 2 added, the front is 0, 3
(by decreasing priority within the row of each added cell) -/
example : (nbhAfter exPath .extended [1, 2, 3, 4] (NSet.ofList [0, 1, 2, 3]) [1, 2]).toOption.map Nbh.cands = some [0, 3] := by
  decide +kernel

/-- pure front with two cells added in dimension 2: the merged front by decreasing priority -/
example : (nbhAfter exPath .pureFront [1, 2, 3, 4] (NSet.ofList [0, 2, 3]) [1, 2]).toOption.map Nbh.cands = some [3, 0] := by
  decide +kernel

end CoMMA
