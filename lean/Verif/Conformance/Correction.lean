import Verif.Conformance.Meshes
/-! # The model against the unit tests: correction (tests/test_correction.cpp) -/

namespace CoMMA.Tests

/-- the calls of `create_cc` of a test (cells, compactness, anisotropic), one after the other, and then `correct`:
the coarse cells before and after -/
def corrected (m : Mesh) (thresh : Nat) (l : List (List Nat × Nat × Bool)) : Option (List (Option Nat) × List (Option Nat)) :=
  val (do
    let c ← l.foldlM (fun c x => do
      let r ← c.create (NSet.ofList x.1) x.2.1 x.2.2 false
      pure r.2) (Cont.new m.n thresh)
    let c' ← c.correct (graphOf m.args) Hash.id
    pure (c.fc2cc, c'.fc2cc))

/-- coarse cells of all cells -/
def all (before after : List Nat) : Option (List (Option Nat) × List (Option Nat)) :=
  some (before.map some, after.map some)

/-- no coarse cell of one cell (tests/test_correction.cpp:26-63) -/
example : run { minimal.args with correction := true, goalCard := 2, minCard := 2, maxCard := 2 } =
    some [0, 0, 1, 2, 0, 1, 2, 3, 3] := by decide +kernel

/-- the single cell is second, first, last (tests/test_correction.cpp:66-168) -/
example : corrected twoRows 1 [([0, 4, 5], 1, false), ([1], 0, false), ([2, 3, 6, 7], 2, false)] =
    all [0, 1, 2, 2, 0, 0, 2, 2] [0, 0, 1, 1, 0, 0, 1, 1] := by decide +kernel
example : corrected twoRows 1 [([1], 0, false), ([0, 4, 5], 1, false), ([2, 3, 6, 7], 2, false)] =
    all [1, 0, 2, 2, 1, 1, 2, 2] [0, 0, 1, 1, 0, 0, 1, 1] := by decide +kernel
example : corrected twoRows 1 [([0, 4, 5], 1, false), ([2, 3, 6, 7], 2, false), ([1], 0, false)] =
    all [0, 2, 1, 1, 0, 0, 1, 1] [0, 0, 1, 1, 0, 0, 1, 1] := by decide +kernel

/-- compactness decides (tests/test_correction.cpp:186-218) -/
example : corrected quad3 1 [([0, 1, 2, 5, 8], 1, false), ([4], 0, false), ([3, 6, 7], 1, false)] =
    all [0, 0, 0, 2, 1, 0, 2, 2, 0] [0, 0, 0, 1, 1, 0, 1, 1, 0] := by decide +kernel

/-- shared faces decide (tests/test_correction.cpp:220-253) -/
example : corrected quad3 1 [([0, 3], 1, false), ([6, 7], 1, false), ([4], 0, false), ([1, 2, 5, 8], 1, false)] =
    all [0, 3, 3, 0, 2, 3, 1, 1, 3] [0, 2, 2, 0, 2, 2, 1, 1, 2] := by decide +kernel

/-- cardinality decides (tests/test_correction.cpp:255-288) -/
example : corrected quad3 1 [([0, 1, 3, 4], 2, false), ([7, 8], 1, false), ([6], 0, false), ([2, 5], 1, false)] =
    all [0, 0, 3, 0, 0, 3, 2, 1, 1] [0, 0, 2, 0, 0, 2, 1, 1, 1] := by decide +kernel

/-- the lowest number decides (tests/test_correction.cpp:290-325) -/
example : corrected quad3 1
    [([0, 3], 1, false), ([6, 7], 1, false), ([4], 0, false), ([5, 8], 1, false), ([1, 2], 1, false)] =
    all [0, 4, 4, 0, 2, 3, 1, 1, 3] [0, 3, 3, 0, 0, 2, 1, 1, 2] := by decide +kernel

/-- not an anisotropic coarse cell (tests/test_correction.cpp:327-361) -/
example : corrected quad3 1
    [([0, 3], 1, true), ([6, 7], 1, false), ([4], 0, false), ([5, 8], 1, false), ([1, 2], 1, false)] =
    all [0, 4, 4, 0, 2, 3, 1, 1, 3] [0, 3, 3, 0, 1, 2, 1, 1, 2] := by decide +kernel

/-- nowhere to go (tests/test_correction.cpp:363-396) -/
example : corrected quad3 1
    [([0, 3], 1, true), ([6, 7], 1, true), ([4], 0, false), ([5, 8], 1, true), ([1, 2], 1, true)] =
    all [0, 4, 4, 0, 2, 3, 1, 1, 3] [0, 4, 4, 0, 2, 3, 1, 1, 3] := by decide +kernel

/-- two single cells, three single cells (tests/test_correction.cpp:398-463) -/
example : corrected quad3 1
    [([0, 1], 1, false), ([2], 0, false), ([6], 0, false), ([3, 4, 7], 1, false), ([5, 8], 1, false)] =
    all [0, 0, 1, 3, 3, 4, 2, 3, 4] [0, 0, 0, 1, 1, 2, 1, 1, 2] := by decide +kernel
example : corrected quad3 1
    [([3, 4, 5], 1, false), ([6, 7, 8], 1, false), ([0], 0, false), ([1], 0, false), ([2], 0, false)] =
    all [2, 3, 4, 0, 0, 0, 1, 1, 1] [2, 2, 2, 0, 0, 0, 1, 1, 1] := by decide +kernel

/-- threshold 3 (tests/test_correction.cpp:465-493) -/
example : corrected quad3 3 [([0, 1], 1, false), ([2], 0, false), ([3, 4, 5, 6, 7, 8], 2, false)] =
    all [0, 0, 1, 2, 2, 2, 2, 2, 2] [0, 0, 0, 0, 0, 0, 0, 0, 0] := by decide +kernel

/-- a cell without neighbours is added (tests/test_correction.cpp:496-524) -/
def extraArgs : Args Dbl :=
  { quad3.args with
    rowPtr := quad3.row ++ [24]
    nBnd := quad3.bnd ++ [0]
    volumes := quad3.vol ++ [d 1 0]
    centers := quad3.cen ++ [[d (-10) 0, d (-10) 0]]
    prio := quad3.prio ++ [d (-1) 0]
    compliant := List.range 10
    goalCard := 4
    minCard := 2
    maxCard := 6 }

/-- it stays alone (tests/test_correction.cpp:526-600) -/
example : run extraArgs = some [0, 0, 1, 0, 0, 1, 2, 2, 2, 3] := by decide +kernel
example : run { extraArgs with correction := true } = some [0, 0, 1, 0, 0, 1, 2, 2, 2, 3] := by decide +kernel

end CoMMA.Tests
