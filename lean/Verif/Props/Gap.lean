import Verif.Props.Levels
import Verif.Props.Threshold
/-! # C18: what an index without cells does to the next level -/

set_option linter.unusedSectionVars false

namespace CoMMA

variable {W : Type} [Num W]

theorem cellsOf_absent {f2c : List Nat} {k : Nat} (h : k ∉ f2c) : cellsOf f2c k = [] := by
  unfold cellsOf
  rw [List.filter_eq_nil_iff]
  intro i _ hi
  exact h (List.mem_of_getElem? (by simpa using hi))

/-- **C18** If an index below the largest one is given to no cell, `build_coarse_graph` makes a coarse
cell of it all the same: it has no neighbours, the volume zero, and the smallest integer as
number of boundary faces.  With more than one coarse cell the coarse mesh is not connected. -/
theorem C18_gap {g : MeshData W} {n : Nat} (hg : ValidData g n) {f2c : List Nat} (hf : f2c.length = n) {N : Nat}
    (hN : CoarseCount f2c N) (z : Int) {k : Nat} (hk : k < N) (hgap : k ∉ f2c) :
    ∃ out, buildCoarseGraph z f2c g = .ok out ∧ (∀ l, ¬ Adj out.adjIdx out.adj k l ∧ ¬ Adj out.adjIdx out.adj l k) ∧
      out.volumes[k]? = some (Num.ofNat 0) ∧ out.nBnd[k]? = some z ∧ ¬ ConnectedMesh N out.adjIdx out.adj := by
  obtain ⟨out, D, rows, h1, _, h2, h3⟩ := hN.exists_ok hg hf z
  have hadj : ∀ l, ¬ Adj out.adjIdx out.adj k l ∧ ¬ Adj out.adjIdx out.adj l k := by
    intro l
    rw [h2.adj_iff hg hf hN.1, h2.adj_iff hg hf hN.1]
    constructor
    · rintro ⟨_, i, _, hi, _⟩; exact hgap (List.mem_of_getElem? hi)
    · rintro ⟨_, _, j, _, hj, _⟩; exact hgap (List.mem_of_getElem? hj)
  refine ⟨out, h1, hadj, ?_, ?_, ?_⟩
  · rw [h3, List.getElem?_map, List.getElem?_range hk]
    simp only [Option.map_some]
    rw [cellsOf_absent hgap]; rfl
  · rw [h2.nBnd, List.getElem?_map, List.getElem?_range hk]
    simp only [Option.map_some]
    rw [cellsOf_absent hgap]; rfl
  · intro hc
    have h0 := hN.2
    have hne : k ≠ N - 1 := by rintro rfl; exact hgap h0
    obtain ⟨m, hw⟩ := hc (N - 1) k (by omega) hk
    cases hw with
    | nil => exact hne rfl
    | step _ h => exact (hadj _).2 h

/-- the mesh of `exGap` -/
def exGapMesh : MeshData Int :=
  ⟨exGap.rowPtr, exGap.colInd, exGap.values, exGap.volumes, exGap.centers, exGap.prio, List.replicate 6 0⟩

theorem exGapMesh_data : ValidData exGapMesh 6 where
  crs := exGap_crs
  pos := by decide
  priority := rfl
  volumes := rfl
  centers := rfl
  cover := by decide
  nBnd := rfl
  coords := ⟨2, by decide⟩

/-- **C18 fails for larger thresholds**: a call with threshold 2 on a connected mesh returns normally, and the coarse
graph of its result has a coarse cell without cells, neighbours and volume. -/
theorem C18_threshold_counterexample : ∃ (a : Args Int) (g g' : MeshData Int) (f : List Nat),
    ValidMesh (a.onMesh g) 6 ∧ ValidParams exPlatform (a.onMesh g) ∧ ConnectedMesh 6 g.adjIdx g.adj ∧
    agglomerateOneLevel exPlatform (a.onMesh g) ⟨[], [], []⟩ = (⟨f, [], []⟩, .ok ()) ∧
    buildCoarseGraph (-100) f g = .ok g' ∧ g'.volumes = [5, 0, 1] ∧ g'.nBnd = [0, -100, 0] ∧
    ¬ ConnectedMesh 3 g'.adjIdx g'.adj := by
  obtain ⟨out, h1, _, _, _, h5⟩ := C18_gap exGapMesh_data (f2c := [0, 0, 0, 0, 0, 2]) rfl (N := 3) ⟨by decide, by decide⟩ (-100)
    (k := 1) (by decide) (by decide)
  have e : buildCoarseGraph (-100) [0, 0, 0, 0, 0, 2] exGapMesh =
    .ok ⟨[0, 1, 1, 2], [2, 0], [1, 1], [5, 0, 1], [[0, 0], [0, 0], [0, -2]], [9, 1, 3], [0, -100, 0]⟩ := by rfl
  rw [e] at h1
  cases h1
  refine ⟨exGap, exGapMesh, _, _, exGap_valid, exGap_params, ?_, by decide +kernel, e, rfl, rfl, h5⟩
  have hadj : ∀ i, i < 6 → ∃ k, Walk (Adj exGapMesh.adjIdx exGapMesh.adj) k i 0 := by
    have h : ∀ {i j : Nat}, j ∈ rowOf exGapMesh.adjIdx exGapMesh.adj i → Adj exGapMesh.adjIdx exGapMesh.adj i j :=
      fun h => adj_iff_rowOf.2 h
    intro i hi
    match i, hi with
    | 0, _ => exact ⟨0, .nil _⟩
    | 1, _ => exact ⟨1, .step (.nil _) (h (by decide))⟩
    | 2, _ => exact ⟨1, .step (.nil _) (h (by decide))⟩
    | 3, _ => exact ⟨1, .step (.nil _) (h (by decide))⟩
    | 4, _ => exact ⟨1, .step (.nil _) (h (by decide))⟩
    | 5, _ => exact ⟨2, .step (.step (.nil _) (h (i := 5) (j := 4) (by decide))) (h (by decide))⟩
  intro i j hi hj
  obtain ⟨k, hk⟩ := hadj i hi
  obtain ⟨l, hl⟩ := hadj j hj
  exact ⟨_, hk.trans (hl.symm exGap_valid.sym)⟩

end CoMMA
