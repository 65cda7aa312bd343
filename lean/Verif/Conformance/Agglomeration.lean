import Verif.Conformance.Meshes
/-! # The model against the unit tests: agglomeration

Each example evaluates the model on the data of a test of the repository and finds what the test requires.
These are tests of the model, not properties of it: see DESIGN.md, section 4. -/

namespace CoMMA.Tests

/-! ## tests/test_isoagglo.cpp -/

/-- reference for the cube (tests/test_isoagglo.cpp:66-140) -/
def cubeRef : List Nat :=
  [0, 0, 1, 1, 0, 0, 1, 1, 2, 2, 3, 3, 2, 2, 3, 3, 0, 0, 1, 1, 0, 0,
   1, 1, 2, 2, 3, 3, 2, 2, 3, 3, 4, 4, 5, 5, 4, 4, 5, 5, 6, 6, 7, 7,
   6, 6, 7, 7, 4, 4, 5, 5, 4, 4, 5, 5, 6, 6, 7, 7, 6, 6, 7, 7]

/-- the cube, in eights -/
def cubeArgs (correction : Bool) (nbh : NbhKind) : Args Dbl :=
  { cube4.args with
    goalCard := 8
    minCard := 8
    maxCard := 8
    correction := correction
    nbh := nbh }

example : run (cubeArgs false .extended) = some cubeRef := by decide +kernel
example : run (cubeArgs true .pureFront) = some cubeRef := by decide +kernel

/-- reference for the square (tests/test_isoagglo.cpp:176-232, tests/test_structure.cpp:121-123) -/
def squareRef : List Nat := [0, 0, 1, 1, 0, 0, 1, 1, 2, 2, 3, 3, 2, 2, 3, 3]

example : run quad4.args = some squareRef := by decide +kernel
example : run { quad4.args with correction := true } = some squareRef := by decide +kernel
example : run { quad4.args with nbh := .pureFront } = some squareRef := by decide +kernel
example : run { quad4.args with nbh := .pureFront, correction := true } = some squareRef := by decide +kernel

/-- `choose_optimal_cc_and_update_seeds_pool` from cell 1 of the T-shaped mesh: the cells and their compactness -/
def tCell (it : Int) : Option (List Nat × Nat) :=
  val (do
    let a := { tShaped.args with fcIter := it }
    let c ← poolOf platform a
    let p ← Pool.new.initialize c
    let r ← chooseOptimal (isoEnvOf platform a c) (List.replicate 6 false) p 1
    pure (r.1.elems, r.2.1))

/-- one iteration, then two (tests/test_isoagglo.cpp:234-312) -/
example : tCell 1 = some ([0, 1, 2, 4], 1) := by decide +kernel
example : tCell 2 = some ([0, 1, 3, 4], 2) := by decide +kernel

/-! ## tests/test_anisoagglo.cpp -/

/-- the lines the constructor builds or reads -/
def linesOf (a : Args Dbl) (o : Outs := ⟨[], [], []⟩) : Option (List (List Nat)) := val (fineLines platform a o)

/-- lines are found in the anisotropic mesh, and none if no cell is allowed, if the threshold is too high, if all
lines have one cell, if one cell is allowed (tests/test_anisoagglo.cpp:46-301) -/
example : (linesOf { aniso.args with isAniso := true, thr := d 2 0 }).map (fun l => l.isEmpty) = some false := by
  decide +kernel
example : linesOf { aniso.args with isAniso := true, thr := d (-2) 0, compliant := [] } = some [] := by
  decide +kernel
example : linesOf { aniso.args with isAniso := true, thr := d 10000 0 } = some [] := by decide +kernel
example : linesOf { aniso.args with isAniso := true, buildLines := false } ⟨[], [0, 1, 2], [1, 2]⟩ = some [] := by
  decide +kernel
example : linesOf { aniso.args with isAniso := true, thr := d (-2) 0, compliant := [0] } = some [] := by
  decide +kernel

/-- a given line of one cell is dropped (tests/test_anisoagglo.cpp:303-352) -/
example : (linesOf { aniso3.args with isAniso := true, buildLines := false }
    ⟨[], [0, 1, 6, 11, 16], [0, 11, 10, 9, 8, 7, 16, 14, 12, 13, 15, 20, 22, 23, 21, 19]⟩).map List.length = some 3 := by
  decide +kernel

/-- reference for the mesh with four lines of five cells (tests/test_structure.cpp:286-288; the same groups and
numbers in tests/test_anisoagglo.cpp:353-453, 794-908, 915-975) -/
def linesRef : List Nat :=
  [0, 0, 1, 1, 1, 8, 8, 3, 3, 3, 2, 2, 5, 5, 4, 5, 4, 9, 9, 7, 6, 7, 6, 7, 8, 8, 9, 9]

/-- the mesh with four lines of five cells -/
def linesArgs : Args Dbl := { aniso3.args with isAniso := true }

example : run linesArgs = some linesRef := by decide +kernel
example : run { linesArgs with correction := true } = some linesRef := by decide +kernel
example : run { linesArgs with correction := true, order := .neighbourhood } = some linesRef := by decide +kernel
example : run { linesArgs with buildLines := false, thr := d 2 0 }
    ⟨[], [0, 5, 10, 15, 20], [0, 1, 2, 3, 4, 11, 10, 9, 8, 7, 16, 14, 12, 13, 15, 20, 22, 23, 21, 19]⟩ =
    some linesRef := by decide +kernel

/-- whether cells have the same coarse cell, and no other cell has it -/
def together (f : Option (List Nat)) (l : List Nat) : Bool :=
  match f with
  | none => false
  | some f => (List.range f.length).all fun i => l.contains i == (f[i]? == (l.head?.bind fun k => f[k]?))

/-- lines of even length only: the two cells left join an isotropic coarse cell (tests/test_anisoagglo.cpp:455-553) -/
example : together (run { linesArgs with oddLine := false }) [4, 7, 15, 19] = true ∧
    (run { linesArgs with oddLine := false }).map (fun f => (f[4]?, f[24]?, f[27]?)) = some (some 10, some 8, some 9) := by
  decide +kernel

/-- priorities in increasing order, neighbourhood first (tests/test_anisoagglo.cpp:687-792) -/
def increasingArgs : Args Dbl :=
  { linesArgs with order := .neighbourhood, prio := (List.range 28).map fun i => Num.ofNat i }

example : run increasingArgs =
    some [6, 6, 7, 7, 7, 9, 9, 5, 5, 5, 4, 4, 3, 3, 2, 3, 2, 8, 8, 1, 0, 1, 0, 1, 9, 9, 8, 8] := by decide +kernel

/-- the seed after the anisotropic phase is next to the first line (tests/test_anisoagglo.cpp:741-757) -/
example : val (do
    let c ← poolOf platform increasingArgs
    let r ← anisoPhase platform increasingArgs ⟨[], [], []⟩ c
    let s ← r.2.1.choose c r.1.agg
    pure s.1) = some (some 18) := by decide +kernel

/-- lines of at most three cells (tests/test_anisoagglo.cpp:976-1034) -/
example : run { linesArgs with correction := true, order := .neighbourhood, maxCells := some 3 } =
    some [0, 0, 0, 4, 4, 6, 6, 4, 4, 1, 1, 1, 2, 5, 2, 5, 2, 7, 7, 5, 3, 5, 3, 3, 6, 6, 7, 7] := by decide +kernel

/-! The stretched mesh (tests/test_anisoagglo.cpp:555-685) -/

/-- the positions of the faces between cells of a layer -/
def facesIn (m : Mesh) (layer : List Nat) : List Nat :=
  (layer.flatMap fun i => (List.range ((m.row.getD (i + 1) 0) - m.row.getD i 0)).map (· + m.row.getD i 0)).filter
    fun k => layer.contains (m.col.getD k 0)

/-- a layer moved upwards, its vertical faces made larger -/
def stretch (m : Mesh) (layer : List Nat) (up larger : Dbl) : Mesh :=
  { m with
    area := (facesIn m layer).foldl (fun l k => l.modify k (fun v => Dbl.add v larger)) m.area
    cen := layer.foldl (fun c i => c.modify i (fun p => p.modify 1 (fun v => Dbl.add v up))) m.cen }

/-- the mesh with its two upper layers stretched -/
def stretched : Mesh := stretch (stretch aniso3 [5, 6, 17, 18] (d 5 1) (d 5 1)) [24, 25, 26, 27] (d 1 0) (d 5 1)

example : run { stretched.args with
    isAniso := true
    thr := d (-4) 0
    prio := [0, 11, 16, 20].foldl (fun l i => l.set i (d 29 0)) aniso3.prio } =
    some [0, 0, 1, 1, 2, 2, 5, 5, 4, 4, 3, 3, 7, 7, 6, 8, 6, 8, 11, 11, 9, 10, 9, 10, 2, 5, 8, 11] := by decide +kernel

/-! The triangles (tests/test_anisoagglo.cpp:1040-1294) -/

/-- coarse cells after the anisotropic phase, and the exported lines -/
def triPhase (force : Bool) : Option (List (Option Nat) × List Nat × List Nat) :=
  val (do
    let a := { triangles.args with
      isAniso := true
      thr := d (-2) 0
      goalCard := 2
      minCard := 2
      maxCard := 2
      forceDir := force }
    let c ← poolOf platform a
    let r ← anisoPhase platform a ⟨[], [], []⟩ c
    pure (r.1.fc2cc, r.2.2))

/-- with the direction forced (tests/test_anisoagglo.cpp:1061-1096) -/
example : triPhase true =
    some ([some 0, some 0, none, some 1, some 2, some 2, some 1, some 2], [0, 2, 3], [0, 1, 2]) := by decide +kernel

/-- without (tests/test_anisoagglo.cpp:1097-1133) -/
example : triPhase false =
    some ([some 1, some 1, some 2, some 2, some 0, some 0, some 3, some 3], [0, 2, 4], [0, 1, 2, 3]) := by decide +kernel

/-- weights of the faces and largest weights of `tag_anisotropic_cells` -/
def tagged (c : Coupling) (t : Dbl) : Option (List Dbl × List Dbl) :=
  val (do
    let r ← (graphOf triangles.args).tagCells Hash.id triangles.prio c 0 t (List.replicate 8 (d 0 0))
      (List.replicate 8 false)
    pure (r.1, r.2.1))

example : tagged .maxWeight (d (-1) 0) = some ([], List.replicate 8 sqrt101) := by decide +kernel
example : tagged .maxWeight (d 2 0) = some ([], List.replicate 8 sqrt101) := by decide +kernel

/-- 1 / (x² + y²) -/
def overDist (x y : Dbl) : Dbl := Dbl.div (d 1 0) (Dbl.add (Dbl.mul x x) (Dbl.mul y y))

/-- reference (tests/test_anisoagglo.cpp:1209-1290) -/
def distRef : List Dbl :=
  let s := overDist tenThirds third
  let h := overDist (Dbl.mul (d 2 0) tenThirds) third
  let v := overDist tenThirds (Dbl.mul (d 2 0) third)
  [s, h, s, v, s, h, s, v, v, s, h, s, v, s, h, s]

example : tagged .minDistance (d (-1) 0) = some (distRef, List.replicate 8 (overDist tenThirds third)) := by
  decide +kernel
example : tagged .minDistance (d 2 0) = some (distRef, List.replicate 8 (overDist tenThirds third)) := by
  decide +kernel

/-! ## tests/test_structure.cpp -/

/-- the four seeds pools (tests/test_structure.cpp:117-275) -/
example : ∀ s ∈ [SeedOrder.neighbourhood, .boundary, .neighbourhoodOnePoint, .boundaryOnePoint],
    run { quad4.args with order := s, correction := true, thr := d (-4) 0 } = some squareRef := by decide +kernel

/-- the overload with structures (tests/test_structure.cpp:160-193, 325-367) -/
def runArgs (m : Mesh) (agglo : AgglomerationArgs) (aniso : AnisotropicArgs Dbl) : Option (List Nat) :=
  match agglomerateStructured platform ⟨m.row, m.col, m.area, m.vol, m.cen, m.prio, m.bnd, 2⟩ agglo aniso
      ⟨[], [], []⟩ with
  | (r, .ok _) => some r.fcToCc
  | (_, .error _) => none

example : runArgs quad4
    { goalCard := 4, minCard := 4, maxCard := 4, correction := true, seedOrderingType := .neighbourhood }
    { isAnisotropic := false, anisotropicCompliantCells := List.range 16 } = some squareRef := by decide +kernel
example : runArgs aniso3
    { goalCard := 4, minCard := 4, maxCard := 4, correction := true, seedOrderingType := .boundary }
    { isAnisotropic := true, anisotropicCompliantCells := List.range 28, buildLines := true, oddLineLength := true,
      thresholdAnisotropy := d 4 0 } = some linesRef := by decide +kernel

/-- arguments refused (tests/test_structure.cpp:368-503) -/
def badArgs : Args Dbl := { linesArgs with correction := true, order := .neighbourhood }

example : ∀ r ∈ [run { badArgs with dim := 5 }, run { badArgs with rowPtr := [] }, run { badArgs with rowPtr := [2] },
    run { badArgs with colInd := [2] }, run { badArgs with values := [] }, run { badArgs with minCard := 5 },
    run { badArgs with goalCard := 0 }, run { badArgs with buildLines := false } ⟨[], [0, 0], [4]⟩,
    run { badArgs with singThresh := 0 }, run { badArgs with fcIter := 0 }, run { badArgs with fcIter := 5 }],
    r = none := by decide +kernel

end CoMMA.Tests
