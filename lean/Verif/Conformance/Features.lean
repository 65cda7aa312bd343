import Verif.Conformance.Meshes
/-! # The model against the unit tests: features and aspect ratios (tests/test_ARComputer.cpp)

The tests compare up to 1e-10 (tests/test_ARComputer.cpp:30), and so does `near`. -/

namespace CoMMA.Tests

/-- equal up to the tolerance of the tests -/
def near (x y : Dbl) : Bool := Num.le (Num.abs (Num.sub x y)) (d 1 10)
def nearAll (l m : List Dbl) : Bool := l.length == m.length && (l.zip m).all fun x => near x.1 x.2

def squareMesh : Graph Dbl := graphOf quad4.args
def cubeMesh : Graph Dbl := graphOf cube4.args
abbrev k (i : Nat) : Dbl := Num.ofNat i

/-- features as written in the tests: minimum edge and diameter are squared
(tests/test_ARComputer.cpp:85-133) -/
def featsOf (m e i : Dbl) (n : Nat) (minEdge diam : Dbl) (sum : List Dbl) (l : List (Nat × Int)) : Feats Dbl :=
  ⟨m, e, i, n, Dbl.mul minEdge minEdge, Dbl.mul diam diam, sum, l.foldl (fun m x => m.insert x.1 x.2) NMap.empty⟩

/-- A cell is added to a coarse cell with features `f`: the new features are `r` and `shared` faces are shared.  Each
aspect ratio only computes some of the features, those are compared (tests/test_ARComputer.cpp:136-320). -/
def adds (g : Graph Dbl) (i : Nat) (f : Feats Dbl) (cc : List Nat) (r : Feats Dbl) (shared : Nat) : Option Bool :=
  val (do
    let a ← (arOf g Hash.id .diameter).compute i f (NSet.ofList cc)
    let b ← (arOf g Hash.id .external).compute i f (NSet.ofList cc)
    let c ← (arOf g Hash.id .maxOverMinBary).compute i f (NSet.ofList cc)
    let base (t : Feats Dbl) : Bool := near t.measure r.measure && t.nInt == r.nInt
    pure (base a.2.2 && near a.2.2.sqDiam r.sqDiam && near a.2.2.sqMin r.sqMin && a.1 == shared &&
      base b.2.2 && near b.2.2.ext r.ext && near b.2.2.int r.int &&
      base c.2.2 && nearAll c.2.2.sum r.sum && c.2.2.facets.entries == r.facets.entries))

/-- all aspect ratios, in the order of the documentation -/
def ratios (g : Graph Dbl) (i : Nat) (f : Feats Dbl) (cc : List Nat) (r : List Dbl) : Option Bool :=
  val (do
    let l ← [ARKind.diamOverRadius, .diamOverMinEdge, .diameter, .overMeasure, .overInternal, .perimOverRadius, .external,
      .maxBaryOverRadius, .maxOverMinBary, .algebraic].mapM fun x => do
        let t ← (arOf g Hash.id x).compute i f (NSet.ofList cc)
        pure t.2.1
    pure (nearAll l r))

/-- one aspect ratio -/
def ratio (g : Graph Dbl) (x : ARKind) (i : Nat) (f : Feats Dbl) (cc : List Nat) (r : Dbl) : Option Bool :=
  val (do
    let t ← (arOf g Hash.id x).compute i f (NSet.ofList cc)
    pure (near t.2.1 r))

/-- the features of one cell (tests/test_ARComputer.cpp:65-76) -/
example : val (do
    let f ← Feats.init squareMesh 0
    pure (near f.measure (k 1) && near f.ext (k 4) && nearAll f.sum [d 5 1, d 5 1] && f.facets.entries == [(0, 4)])) =
    some true := by decide +kernel

def two : Feats Dbl := featsOf (k 2) (k 6) (k 1) 1 (k 1) (k 1) [k 2, k 1] [(0, 3), (1, 3)]
def three : Feats Dbl := featsOf (k 3) (k 8) (k 2) 2 (k 1) sqrt2 [d 35 1, d 25 1] [(0, 3), (1, 2), (5, 3)]
def four : Feats Dbl := featsOf (k 4) (k 8) (k 4) 4 (k 1) sqrt2 [k 4, k 4] [(0, 2), (1, 2), (4, 2), (5, 2)]

/-- two, three and four cells of the square (tests/test_ARComputer.cpp:135-310) -/
example : val (do let f ← Feats.init squareMesh 0; pure (adds squareMesh 1 f [0] two 1)) = some (some true) := by
  decide +kernel
example : adds squareMesh 5 two [0, 1] three 1 = some true := by decide +kernel
example : adds squareMesh 4 three [0, 1, 5] four 2 = some true := by decide +kernel
example : ratios squareMesh 4 three [0, 1, 5]
    [d 5 1, k 2, k 2, d 25 2, d 25 2, k 16, k 8, d 125 3, k 1, k 2] = some true := by decide +kernel

def eight : Feats Dbl := featsOf (k 8) (k 9) (k 10) 10 (k 1) (Dbl.sqrt (k 8)) [k 11, k 11]
  [(0, 2), (1, 1), (2, 2), (4, 1), (5, 0), (6, 2), (8, 2), (9, 2)]
def nine : Feats Dbl := featsOf (k 9) (k 9) (k 12) 12 (k 1) (Dbl.sqrt (k 8)) [d 135 1, d 135 1]
  [(0, 2), (1, 1), (2, 2), (4, 1), (5, 0), (6, 1), (8, 2), (9, 1), (10, 2)]

/-- nine cells of the square (tests/test_ARComputer.cpp:310-365) -/
example : adds squareMesh 10 eight [0, 1, 5, 2, 4, 6, 8, 9] nine 2 = some true := by decide +kernel
example : ratio squareMesh .maxOverMinBary 10 eight [0, 1, 5, 2, 4, 6, 8, 9] (Dbl.sqrt (k 2)) = some true := by
  decide +kernel

def four3 : Feats Dbl := featsOf (k 4) (k 16) (k 4) 4 (k 1) (Dbl.sqrt (k 2)) [k 4, k 4, k 2] [(0, 4), (1, 4), (4, 4), (5, 4)]
def five3 : Feats Dbl := featsOf (k 5) (k 20) (k 5) 5 (k 1) (Dbl.sqrt (k 3)) [d 55 1, d 45 1, d 35 1]
  [(0, 4), (1, 3), (4, 4), (5, 4), (17, 5)]
def six3 : Feats Dbl := featsOf (k 6) (k 22) (k 7) 7 (k 1) (Dbl.sqrt (k 3)) [k 7, k 6, k 5]
  [(0, 4), (1, 3), (4, 4), (5, 3), (17, 4), (21, 4)]
def seven3 : Feats Dbl := featsOf (k 7) (k 24) (k 9) 9 (k 1) (Dbl.sqrt (k 3)) [d 75 1, d 75 1, d 65 1]
  [(0, 4), (1, 3), (4, 3), (5, 3), (17, 4), (20, 4), (21, 3)]
def eight3 : Feats Dbl := featsOf (k 8) (k 24) (k 12) 12 (k 1) (Dbl.sqrt (k 3)) [k 8, k 8, k 8]
  [(0, 3), (1, 3), (4, 3), (5, 3), (16, 3), (17, 3), (20, 3), (21, 3)]

/-- five, six and eight cells of the cube (tests/test_ARComputer.cpp:422-620) -/
example : adds cubeMesh 17 four3 [0, 1, 4, 5] five3 1 = some true := by decide +kernel
example : adds cubeMesh 21 five3 [0, 1, 4, 5, 17] six3 2 = some true := by decide +kernel
example : adds cubeMesh 16 seven3 [0, 1, 4, 5, 17, 20, 21] eight3 3 = some true := by decide +kernel
example : ratios cubeMesh 16 seven3 [0, 1, 4, 5, 17, 20, 21]
    [Dbl.div (k 27) (k 64), k 3, k 3, d 125 3, Dbl.div (k 1) (k 12), k 216, k 24,
     Dbl.div (Dbl.mul (Dbl.mul (d 75 2) (d 75 2)) (d 75 2)) (k 64), k 1, k 3] = some true := by decide +kernel

def block : List Nat :=
  [40, 41, 36, 37, 38, 32, 33, 34, 24, 25, 26, 20, 21, 22, 16, 17, 18, 8, 9, 10, 4, 5, 6, 0, 1, 2]
def blockFaces : List (Nat × Int) :=
  (21, 0) :: ([5, 17, 20, 22, 25, 37].map (·, 1) ++ [1, 4, 6, 9, 16, 18, 24, 26, 33, 36, 38, 41].map (·, 2) ++
    [0, 2, 8, 10, 32, 34, 40, 42].map (·, 3))
def block27 : Feats Dbl :=
  featsOf (k 9) (k 54) (k 54) 54 (k 1) (Dbl.sqrt (k 48)) [d 405 1, d 405 1, d 405 1] blockFaces
def block26 : Feats Dbl :=
  featsOf (k 8) (k 54) (k 51) 51 (k 1) (Dbl.sqrt (k 48)) [k 38, k 38, k 38]
    (blockFaces.map fun x => if x.1 = 26 ∨ x.1 = 38 ∨ x.1 = 41 then (x.1, x.2 + 1) else x)

/-- the last of twenty-seven cells (tests/test_ARComputer.cpp:624-720) -/
example : adds cubeMesh 42 block26 block block27 3 = some true := by decide +kernel
example : ratio cubeMesh .maxOverMinBary 42 block26 block (Dbl.sqrt (k 3)) = some true := by decide +kernel

end CoMMA.Tests
