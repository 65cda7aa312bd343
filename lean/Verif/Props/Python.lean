import Verif.Model.Python
import Verif.Spec.Python
import Verif.Props.Arguments
import Verif.Props.Util
import Verif.Props.CoarseGraph
/-! # C57: the function called from Python -/

set_option linter.unusedSectionVars false

namespace CoMMA

variable {W : Type} [Num W]

theorem castOrder_known {i : Int} {k : SeedOrder} (h : (i, k) ∈ enumOrder) : castOrder i = k := by
  simp only [enumOrder, List.mem_cons, List.not_mem_nil, or_false, Prod.mk.injEq] at h
  rcases h with h | h | h | h <;> obtain ⟨rfl, rfl⟩ := h <;> rfl

theorem castAspect_known {i : Int} {k : ARKind} (h : (i, k) ∈ enumAspect) : castAspect i = k := by
  simp only [enumAspect, List.mem_cons, List.not_mem_nil, or_false, Prod.mk.injEq] at h
  rcases h with h | h | h | h | h | h | h | h | h | h <;> obtain ⟨rfl, rfl⟩ := h <;> rfl

theorem castCoupling_known {i : Int} {k : Coupling} (h : (i, k) ∈ enumCoupling) : castCoupling i = k := by
  simp only [enumCoupling, List.mem_cons, List.not_mem_nil, or_false, Prod.mk.injEq] at h
  rcases h with h | h <;> obtain ⟨rfl, rfl⟩ := h <;> rfl

theorem castNbh_known {i : Int} {k : NbhKind} (h : (i, k) ∈ enumNbh) : castNbh i = k := by
  simp only [enumNbh, List.mem_cons, List.not_mem_nil, or_false, Prod.mk.injEq] at h
  rcases h with h | h <;> obtain ⟨rfl, rfl⟩ := h <;> rfl

theorem castOrder_unknown {i : Int} (h : ∀ k, (i, k) ∉ enumOrder) : castOrder i = .unknown := by
  have h0 := h .boundary
  have h1 := h .neighbourhood
  have h2 := h .boundaryOnePoint
  have h3 := h .neighbourhoodOnePoint
  simp [enumOrder] at h0 h1 h2 h3
  simp [castOrder, h0, h1, h2, h3]

theorem castAspect_unknown {i : Int} (h : ∀ k, (i, k) ∉ enumAspect) : castAspect i = .unknown := by
  have h0 := h .diamOverRadius
  have h1 := h .diamOverMinEdge
  have h2 := h .diameter
  have h3 := h .overMeasure
  have h4 := h .overInternal
  have h5 := h .perimOverRadius
  have h6 := h .external
  have h7 := h .maxBaryOverRadius
  have h8 := h .maxOverMinBary
  have h9 := h .algebraic
  simp [enumAspect] at h0 h1 h2 h3 h4 h5 h6 h7 h8 h9
  simp [castAspect, h0, h1, h2, h3, h4, h5, h6, h7, h8, h9]

theorem seen_bind (r : Outs × M Unit) :
    (do r.2; pure (r.1.fcToCc, r.1.linesIdx, r.1.lines) : M (List Nat × List Nat × List Nat)) = seenFromPython r := by
  obtain ⟨o, m⟩ := r
  cases m <;> rfl

/-- the call made by the wrapper, with the arguments of the C++ function under their names -/
theorem pyAgglomerate_eq (P : Platform) (a : Args W) (idx lines : List Nat) (io ia ic inb : Int) :
    pyAgglomerate P a.rowPtr a.colInd a.values a.volumes a.centers a.prio a.compliant a.nBnd a.buildLines a.isAniso
      a.oddLine a.thr io idx lines a.correction a.dim a.goalCard a.minCard a.maxCard ia a.singThresh a.maxCells ic
      a.forceDir a.fcIter inb =
    seenFromPython (agglomerateOneLevel P
      { a with order := castOrder io, aspect := castAspect ia, coupling := castCoupling ic, nbh := castNbh inb }
      ⟨[], idx, lines⟩) := by
  rw [← seen_bind]; rfl

/-- **C57** Given the integer values of enumerators, the Python function returns exactly the
three vectors the C++ call leaves when it starts with an empty result and the same lines, and
raises exactly when the C++ call throws. -/
theorem C57_same {P : Platform} {a : Args W} {idx lines : List Nat} {io ia ic inb : Int}
    (ho : (io, a.order) ∈ enumOrder) (ha : (ia, a.aspect) ∈ enumAspect) (hc : (ic, a.coupling) ∈ enumCoupling)
    (hn : (inb, a.nbh) ∈ enumNbh) :
    pyAgglomerate P a.rowPtr a.colInd a.values a.volumes a.centers a.prio a.compliant a.nBnd a.buildLines a.isAniso
      a.oddLine a.thr io idx lines a.correction a.dim a.goalCard a.minCard a.maxCard ia a.singThresh a.maxCells ic
      a.forceDir a.fcIter inb =
    seenFromPython (agglomerateOneLevel P a ⟨[], idx, lines⟩) := by
  rw [pyAgglomerate_eq, castOrder_known ho, castAspect_known ha, castCoupling_known hc, castNbh_known hn]

/-- **C57** Arguments left out have the default values of the C++ structures. -/
theorem C57_defaults {P : Platform} {rowPtr colInd : List Nat} {values volumes : List W} {centers : List (List W)}
    {prio : List W} {compliant nBnd : List Nat} {build isAniso odd : Bool} {thr : W} {order : SeedOrder}
    {io : Int} {idx lines : List Nat} {corr : Bool} {dim goal min max : Int} (ho : (io, order) ∈ enumOrder) :
    pyAgglomerate P rowPtr colInd values volumes centers prio compliant nBnd build isAniso odd thr io idx lines corr
      dim goal min max =
    seenFromPython (agglomerateStructured P ⟨rowPtr, colInd, values, volumes, centers, prio, nBnd, dim⟩
      { goalCard := goal, minCard := min, maxCard := max, correction := corr, seedOrderingType := order }
      { isAnisotropic := isAniso, anisotropicCompliantCells := compliant, buildLines := build, oddLineLength := odd,
        thresholdAnisotropy := thr } ⟨[], idx, lines⟩) := by
  rw [← castOrder_known ho, ← seen_bind]; rfl

/-- **C57** An integer that is no seed ordering is refused, whatever the other arguments. -/
theorem C57_order_refused {P : Platform} {a : Args W} {idx lines : List Nat} {io ia ic inb : Int}
    (ho : ∀ k, (io, k) ∉ enumOrder) :
    pyAgglomerate P a.rowPtr a.colInd a.values a.volumes a.centers a.prio a.compliant a.nBnd a.buildLines a.isAniso
      a.oddLine a.thr io idx lines a.correction a.dim a.goalCard a.minCard a.maxCard ia a.singThresh a.maxCells ic
      a.forceDir a.fcIter inb = .error .invalidArgument := by
  rw [pyAgglomerate_eq, C23_rejects]
  · rfl
  · unfold BadArgs
    exact Or.inr (Or.inr (Or.inr (Or.inr (Or.inr (Or.inr (Or.inr (castOrder_unknown ho)))))))

theorem unknown_aspect_no_result {P : Platform} {a : Args W} {o : Outs} (h : a.aspect = .unknown) :
    (agglomerateOneLevel P a o).2 ≠ .ok () := by
  unfold agglomerateOneLevel
  split
  · intro hc; cases hc
  · rename_i c _
    unfold runPhases
    split
    · intro hc; cases hc
    · have : ∀ k p, isoPhase P a c k p = .error .invalidArgument := by
        intro k p
        unfold isoPhase
        rw [h]; rfl
      rw [this]
      intro hc; cases hc

/-- **C57** With an integer that is no aspect ratio no result is ever returned. -/
theorem C57_aspect_refused {P : Platform} {a : Args W} {idx lines : List Nat} {io ia ic inb : Int}
    (ha : ∀ k, (ia, k) ∉ enumAspect) (r : List Nat × List Nat × List Nat) :
    pyAgglomerate P a.rowPtr a.colInd a.values a.volumes a.centers a.prio a.compliant a.nBnd a.buildLines a.isAniso
      a.oddLine a.thr io idx lines a.correction a.dim a.goalCard a.minCard a.maxCard ia a.singThresh a.maxCells ic
      a.forceDir a.fcIter inb ≠ .ok r := by
  rw [pyAgglomerate_eq, castAspect_unknown ha]
  have := unknown_aspect_no_result (P := P) (o := ⟨[], idx, lines⟩)
    (a := { a with order := castOrder io, aspect := .unknown, coupling := castCoupling ic, nbh := castNbh inb }) rfl
  unfold seenFromPython
  split
  · rename_i h; exact absurd h this
  · intro hc; cases hc

theorem coupling_other {P : Platform} {a : Args W} {o : Outs} (h : a.coupling = .unknown) :
    agglomerateOneLevel P { a with coupling := .maxWeight } o = agglomerateOneLevel P a o := by
  have hg : graphOf { a with coupling := .maxWeight } = graphOf a := rfl
  have hp : poolOf P { a with coupling := .maxWeight } = poolOf P a := rfl
  have hca : checkAll P { a with coupling := .maxWeight } o = checkAll P a o := by
    unfold checkAll
    rw [hp]; rfl
  unfold agglomerateOneLevel
  rw [hca]
  have hfl : fineLines P { a with coupling := .maxWeight } o = fineLines P a o := by
    unfold fineLines
    rw [hg]
    have he : effCoupling { a with coupling := .maxWeight } = .maxWeight := rfl
    rw [he]
    by_cases hb : a.buildLines = true
    · have : effCoupling a = .maxWeight := by unfold effCoupling; rw [h]; simp [hb]
      rw [this]
    · rw [if_neg hb, if_neg hb]
  have hr : ∀ c, runPhases P { a with coupling := .maxWeight } o c = runPhases P a o c := by
    intro c
    have h1 : anisoPhase P { a with coupling := .maxWeight } o c = anisoPhase P a o c := by
      unfold anisoPhase
      rw [hg, hfl]; rfl
    have he : isoEnvOf P { a with coupling := .maxWeight } c = isoEnvOf P a c := by
      unfold isoEnvOf
      rw [hg]
    have h2 : ∀ k p, isoPhase P { a with coupling := .maxWeight } c k p = isoPhase P a c k p := by
      intro k p
      have h3 : ∀ k, correctIf P { a with coupling := .maxWeight } k = correctIf P a k := by
        intro k
        unfold correctIf
        rw [hg]
      unfold isoPhase
      rw [he]
      simp only [h3]
    unfold runPhases
    rw [h1]
    simp only [h2]
  simp only [hr]

/-- **C57** Any integer that is no coupling acts as the default coupling: nothing is refused. -/
theorem C57_coupling_other {P : Platform} {a : Args W} {idx lines : List Nat} {io ia ic inb : Int}
    (hc : ∀ k, (ic, k) ∉ enumCoupling) :
    pyAgglomerate P a.rowPtr a.colInd a.values a.volumes a.centers a.prio a.compliant a.nBnd a.buildLines a.isAniso
      a.oddLine a.thr io idx lines a.correction a.dim a.goalCard a.minCard a.maxCard ia a.singThresh a.maxCells ic
      a.forceDir a.fcIter inb =
    pyAgglomerate P a.rowPtr a.colInd a.values a.volumes a.centers a.prio a.compliant a.nBnd a.buildLines a.isAniso
      a.oddLine a.thr io idx lines a.correction a.dim a.goalCard a.minCard a.maxCard ia a.singThresh a.maxCells 0
      a.forceDir a.fcIter inb := by
  have h0 := hc .maxWeight
  have h1 := hc .minDistance
  simp [enumCoupling] at h0 h1
  have hu : castCoupling ic = .unknown := by simp [castCoupling, h0, h1]
  rw [pyAgglomerate_eq, pyAgglomerate_eq, hu]
  have := coupling_other (P := P) (o := ⟨[], idx, lines⟩)
    (a := { a with order := castOrder io, aspect := castAspect ia, coupling := .unknown, nbh := castNbh inb }) rfl
  rw [← this]
  rfl

/-- **C57** Any integer that is no neighbourhood acts as the pure front, which is not the
default: nothing is refused. -/
theorem C57_nbh_other {P : Platform} {a : Args W} {idx lines : List Nat} {io ia ic inb : Int}
    (hn : ∀ k, (inb, k) ∉ enumNbh) :
    pyAgglomerate P a.rowPtr a.colInd a.values a.volumes a.centers a.prio a.compliant a.nBnd a.buildLines a.isAniso
      a.oddLine a.thr io idx lines a.correction a.dim a.goalCard a.minCard a.maxCard ia a.singThresh a.maxCells ic
      a.forceDir a.fcIter inb =
    pyAgglomerate P a.rowPtr a.colInd a.values a.volumes a.centers a.prio a.compliant a.nBnd a.buildLines a.isAniso
      a.oddLine a.thr io idx lines a.correction a.dim a.goalCard a.minCard a.maxCard ia a.singThresh a.maxCells ic
      a.forceDir a.fcIter 1 := by
  have h0 := hn .extended
  simp [enumNbh] at h0
  rw [pyAgglomerate_eq, pyAgglomerate_eq]
  have : castNbh inb = castNbh 1 := by simp [castNbh, h0]
  rw [this]

/-- **C57** The wall distance asked from Python: shortest walk from the wall, or -1. -/
theorem C57_wall_distance {n : Nat} {rowPtr colInd wall : List Nat} (h : ValidCRS n rowPtr colInd)
    (hw : ∀ w ∈ wall, w < n) :
    ∃ dist, pyWallDistance rowPtr colInd wall = .ok dist ∧ dist.length = n ∧ ∀ x < n,
      (∀ d : Nat, dist[x]? = some (d : Int) ↔ IsDistance (Adj rowPtr colInd) (· ∈ wall) x d) ∧
      (dist[x]? = some (-1) ↔ ¬ ReachableFrom (Adj rowPtr colInd) (· ∈ wall) x) :=
  C13_wall_distance h hw

/-- **C57** The filter asked from Python: nothing if no positive value is allowed, else the cells
whose number of edges is in the allowed set, in increasing order. -/
theorem C57_filter {indices : List Nat} {nBnd allowed : List Int} (hl : nBnd.length < indices.length) :
    ∃ r, pyFilterCells indices nBnd allowed = .ok r ∧ r.Pairwise (· < ·) ∧
      ∀ c, c ∈ r ↔ (∃ a ∈ allowed, 0 < a) ∧ ∃ k ∈ allowed, EdgeCount indices nBnd c k :=
  filterCells_exact hl

/-- **C57** The coarse graph asked from Python: the tuple holds, in the order row pointers,
column indices, weights, volumes, centers, priorities, boundary faces, the outputs of the C++
function for the same mesh, and it is raised exactly when the C++ function throws. -/
theorem C57_coarse_graph (z : Int) (f2c : List Nat) (g : MeshData W) :
    (∀ c, buildCoarseGraph z f2c g = .ok c →
      pyBuildCoarseGraph z f2c g.adjIdx g.adj g.weights g.volumes g.centers g.priority g.nBnd =
        .ok (c.adjIdx, c.adj, c.weights, c.volumes, c.centers, c.priority, c.nBnd)) ∧
    (∀ e, buildCoarseGraph z f2c g = .error e →
      pyBuildCoarseGraph z f2c g.adjIdx g.adj g.weights g.volumes g.centers g.priority g.nBnd = .error e) := by
  obtain ⟨a1, a2, a3, a4, a5, a6, a7⟩ := g
  constructor
  · intro c h
    unfold pyBuildCoarseGraph
    rw [h]; rfl
  · intro e h
    unfold pyBuildCoarseGraph
    rw [h]; rfl

/-! ## Concrete cases -/

/-- the example mesh, called from Python with the integers of `exArgs` -/
def exPython (io ia ic inb : Int) : M (List Nat × List Nat × List Nat) :=
  pyAgglomerate exPlatform exArgs.rowPtr exArgs.colInd exArgs.values exArgs.volumes exArgs.centers exArgs.prio
    exArgs.compliant exArgs.nBnd exArgs.buildLines exArgs.isAniso exArgs.oddLine exArgs.thr io [3] [] exArgs.correction
    exArgs.dim exArgs.goalCard exArgs.minCard exArgs.maxCard ia exArgs.singThresh exArgs.maxCells ic exArgs.forceDir
    exArgs.fcIter inb

example : exPython 0 0 0 0 = seenFromPython (agglomerateOneLevel exPlatform exArgs ⟨[], [3], []⟩) :=
  C57_same (a := exArgs) (by decide) (by decide) (by decide) (by decide)

/-- the call returns a result -/
example : ∃ f, exPython 0 0 0 0 = .ok (f, [3], []) ∧ f.length = 7 := by
  obtain ⟨f, h, hl⟩ := C01_total (o := ⟨[], [3], []⟩) exArgs_valid exArgs_params exArgs_sing (Or.inl rfl)
  refine ⟨f, ?_, hl⟩
  have : exPython 0 0 0 0 = seenFromPython (agglomerateOneLevel exPlatform exArgs ⟨[], [3], []⟩) :=
    C57_same (a := exArgs) (by decide) (by decide) (by decide) (by decide)
  rw [this, h]; rfl

example : exPython 2 0 0 0 = .error .invalidArgument :=
  C57_order_refused (a := exArgs) (by intro k; simp [enumOrder])

example (r : List Nat × List Nat × List Nat) : exPython 0 10 0 0 ≠ .ok r :=
  C57_aspect_refused (a := exArgs) (by intro k; simp [enumAspect]) r

example : exPython 0 0 5 0 = exPython 0 0 0 0 :=
  C57_coupling_other (a := exArgs) (by intro k; simp [enumCoupling])

example : exPython 0 0 0 7 = exPython 0 0 0 1 :=
  C57_nbh_other (a := exArgs) (by intro k; simp [enumNbh])

/-- distances from cell 0 in a row of three -/
example : pyWallDistance [0, 1, 3, 4] [1, 0, 2, 1] [0] = .ok [0, 1, 2] := rfl

example : pyFilterCells [0, 1, 3, 4] [1, 0, 1] [2] = .ok [0, 1, 2] := rfl

/-- the coarse graph of three cells in a row -/
example : ∃ c, pyBuildCoarseGraph (-100) [0, 0, 1] exLine3.adjIdx exLine3.adj exLine3.weights exLine3.volumes
    exLine3.centers exLine3.priority exLine3.nBnd = .ok c ∧ c.2.2.1 = [7, 5] ∧ c.2.2.2.1 = [3, 3] :=
  ⟨_, rfl, rfl, rfl⟩

end CoMMA
