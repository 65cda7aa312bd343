import Verif.Model.TopLevel
import Verif.Model.Double
/-! # The meshes of the unit tests of the repository (tests/DualGraphExamples.h)

Data for the comparison of the model with the expectations of the tests: see DESIGN.md, section 4. -/

namespace CoMMA.Tests

/-- a decimal literal of the source: `d n k` is n / 10^k -/
abbrev d := Dbl.dec

/-- `sqrt2` (tests/DualGraphExamples.h:24-27) -/
def sqrt2 : Dbl := Dbl.sqrt (d 2 0)

/-- `sqrt101` (tests/DualGraphExamples.h:24-27) -/
def sqrt101 : Dbl := Dbl.sqrt (d 101 0)

/-- `one_third` (tests/DualGraphExamples.h:24-27) -/
def third : Dbl := Dbl.div (d 1 0) (d 3 0)

/-- `ten_ov_three` (tests/DualGraphExamples.h:24-27) -/
def tenThirds : Dbl := Dbl.div (d 10 0) (d 3 0)

/-- a mesh of the tests (tests/DualGraphExamples.h:29-80) -/
structure Mesh where
  row : List Nat
  col : List Nat
  area : List Dbl
  bnd : List Nat
  vol : List Dbl
  cen : List (List Dbl)

/-- `DualGEx` (tests/DualGraphExamples.h:82-97) -/
def irregular : Mesh :=
  ⟨[0, 2, 5, 9, 13, 17, 21, 24, 28, 32, 35, 38, 41, 44, 46, 49, 52, 54, 56, 59, 62, 64], [1, 9, 0, 2, 6, 1, 3,
  5, 8, 2, 4, 7, 11, 3, 5, 12, 14, 2, 4, 6, 15, 1, 5, 16, 3, 8, 10, 19, 2, 7, 9, 18, 0, 8, 17, 7, 11, 20, 3, 10,
  12, 4, 11, 13, 12, 14, 4, 13, 15, 5, 14, 16, 6, 15, 9, 18, 8, 17, 19, 7, 18, 20, 10, 19], [d 141421356 8, d 1
  0, d 1 0, d 1 0, d 1 0, d 1 0, d 1 0, d 1 0, d 1 0, d 1 0, d 1 0, d 1 0, d 1 0, d 1 0, d 1 0, d 1 0, d 1 0, d
  1 0, d 1 0, d 1 0, d 1 0, d 1 0, d 1 0, d 1 0, d 1 0, d 1 0, d 1 0, d 1 0, d 1 0, d 1 0, d 1 0, d 1 0], [1, 0,
  0, 0, 0, 0, 1, 0, 0, 1, 1, 1, 1, 2, 1, 1, 2, 2, 1, 1, 2], [d 5 1, d 5 1, d 1 0, d 1 0, d 1 0, d 1 0, d 1 0, d
  1 0, d 1 0, d 1 0, d 1 0, d 1 0, d 1 0, d 1 0, d 1 0, d 1 0, d 1 0, d 1 0, d 1 0, d 1 0, d 1 0], [[third,
  third], [(Dbl.mul (d 2 0) third), (Dbl.mul (d 2 0) third)], [d 15 1, d 5 1], [d 25 1, d 5 1], [d 25 1, d 15
  1], [d 15 1, d 15 1], [d 5 1, d 15 1], [d 25 1, d (-5) 1], [d 15 1, d (-5) 1], [d 5 1, d (-5) 1], [d 35 1, d
  (-5) 1], [d 35 1, d 5 1], [d 35 1, d 15 1], [d 35 1, d 25 1], [d 25 1, d 25 1], [d 15 1, d 25 1], [d 5 1, d 25
  1], [d 5 1, d (-15) 1], [d 15 1, d (-15) 1], [d 25 1, d (-15) 1], [d 35 1, d (-15) 1]]⟩

/-- `DualGEx_aniso` (tests/DualGraphExamples.h:99-111) -/
def aniso : Mesh :=
  ⟨[0, 3, 7, 11, 15, 18, 22, 27, 32, 37, 41, 45, 50, 55, 60, 64, 68, 73, 78, 83, 87, 90, 94, 98, 102, 105, 109,
  114, 119, 124, 128, 133, 139, 145, 151, 156, 161, 167, 173, 179, 184, 189, 195, 201, 207, 212, 216, 221, 226,
  231, 235, 239, 244, 249, 254, 258, 263, 269, 275, 281, 286, 291, 297, 303, 309, 314, 319, 325, 331, 337, 342,
  346, 351, 356, 361, 365, 369, 374, 379, 384, 388, 393, 399, 405, 411, 416, 421, 427, 433, 439, 444, 449, 455,
  461, 467, 472, 476, 481, 486, 491, 495, 498, 502, 506, 510, 513, 517, 522, 527, 532, 536, 540, 545, 550, 555,
  559, 563, 568, 573, 578, 582, 585, 589, 593, 597, 600], [1, 5, 25, 0, 2, 6, 26, 1, 3, 7, 27, 2, 4, 8, 28, 3,
  9, 29, 0, 6, 10, 30, 1, 5, 7, 11, 31, 2, 6, 8, 12, 32, 3, 7, 9, 13, 33, 4, 8, 14, 34, 5, 11, 15, 35, 6, 10,
  12, 16, 36, 7, 11, 13, 17, 37, 8, 12, 14, 18, 38, 9, 13, 19, 39, 10, 16, 20, 40, 11, 15, 17, 21, 41, 12, 16,
  18, 22, 42, 13, 17, 19, 23, 43, 14, 18, 24, 44, 15, 21, 45, 16, 20, 22, 46, 17, 21, 23, 47, 18, 22, 24, 48,
  19, 23, 49, 0, 26, 30, 50, 1, 25, 27, 31, 51, 2, 26, 28, 32, 52, 3, 27, 29, 33, 53, 4, 28, 34, 54, 5, 25, 31,
  35, 55, 6, 26, 30, 32, 36, 56, 7, 27, 31, 33, 37, 57, 8, 28, 32, 34, 38, 58, 9, 29, 33, 39, 59, 10, 30, 36,
  40, 60, 11, 31, 35, 37, 41, 61, 12, 32, 36, 38, 42, 62, 13, 33, 37, 39, 43, 63, 14, 34, 38, 44, 64, 15, 35,
  41, 45, 65, 16, 36, 40, 42, 46, 66, 17, 37, 41, 43, 47, 67, 18, 38, 42, 44, 48, 68, 19, 39, 43, 49, 69, 20,
  40, 46, 70, 21, 41, 45, 47, 71, 22, 42, 46, 48, 72, 23, 43, 47, 49, 73, 24, 44, 48, 74, 25, 51, 55, 75, 26,
  50, 52, 56, 76, 27, 51, 53, 57, 77, 28, 52, 54, 58, 78, 29, 53, 59, 79, 30, 50, 56, 60, 80, 31, 51, 55, 57,
  61, 81, 32, 52, 56, 58, 62, 82, 33, 53, 57, 59, 63, 83, 34, 54, 58, 64, 84, 35, 55, 61, 65, 85, 36, 56, 60,
  62, 66, 86, 37, 57, 61, 63, 67, 87, 38, 58, 62, 64, 68, 88, 39, 59, 63, 69, 89, 40, 60, 66, 70, 90, 41, 61,
  65, 67, 71, 91, 42, 62, 66, 68, 72, 92, 43, 63, 67, 69, 73, 93, 44, 64, 68, 74, 94, 45, 65, 71, 95, 46, 66,
  70, 72, 96, 47, 67, 71, 73, 97, 48, 68, 72, 74, 98, 49, 69, 73, 99, 50, 76, 80, 100, 51, 75, 77, 81, 101, 52,
  76, 78, 82, 102, 53, 77, 79, 83, 103, 54, 78, 84, 104, 55, 75, 81, 85, 105, 56, 76, 80, 82, 86, 106, 57, 77,
  81, 83, 87, 107, 58, 78, 82, 84, 88, 108, 59, 79, 83, 89, 109, 60, 80, 86, 90, 110, 61, 81, 85, 87, 91, 111,
  62, 82, 86, 88, 92, 112, 63, 83, 87, 89, 93, 113, 64, 84, 88, 94, 114, 65, 85, 91, 95, 115, 66, 86, 90, 92,
  96, 116, 67, 87, 91, 93, 97, 117, 68, 88, 92, 94, 98, 118, 69, 89, 93, 99, 119, 70, 90, 96, 120, 71, 91, 95,
  97, 121, 72, 92, 96, 98, 122, 73, 93, 97, 99, 123, 74, 94, 98, 124, 75, 101, 105, 76, 100, 102, 106, 77, 101,
  103, 107, 78, 102, 104, 108, 79, 103, 109, 80, 100, 106, 110, 81, 101, 105, 107, 111, 82, 102, 106, 108, 112,
  83, 103, 107, 109, 113, 84, 104, 108, 114, 85, 105, 111, 115, 86, 106, 110, 112, 116, 87, 107, 111, 113, 117,
  88, 108, 112, 114, 118, 89, 109, 113, 119, 90, 110, 116, 120, 91, 111, 115, 117, 121, 92, 112, 116, 118, 122,
  93, 113, 117, 119, 123, 94, 114, 118, 124, 95, 115, 121, 96, 116, 120, 122, 97, 117, 121, 123, 98, 118, 122,
  124, 99, 119, 123], [d 5788845944824356 17, d 5788845944824356 17, d 1 0, d 5788845944824356 17, d
  5788845944824356 17, d 5788845944824356 17, d 1 0, d 5788845944824356 17, d 5788845944824356 17, d
  5788845944824356 17, d 1 0, d 5788845944824356 17, d 5788845944824356 17, d 5788845944824356 17, d 1 0, d
  5788845944824356 17, d 5788845944824356 17, d 1 0, d 5788845944824356 17, d 5788845944824356 17, d
  5788845944824356 17, d 1 0, d 5788845944824356 17, d 5788845944824356 17, d 5788845944824356 17, d
  5788845944824356 17, d 1 0, d 5788845944824356 17, d 5788845944824356 17, d 5788845944824356 17, d
  5788845944824356 17, d 1 0, d 5788845944824356 17, d 5788845944824356 17, d 5788845944824356 17, d
  5788845944824356 17, d 1 0, d 5788845944824356 17, d 5788845944824356 17, d 5788845944824356 17, d 1 0, d
  5788845944824356 17, d 5788845944824356 17, d 5788845944824356 17, d 1 0, d 5788845944824356 17, d
  5788845944824356 17, d 5788845944824356 17, d 5788845944824356 17, d 1 0, d 5788845944824356 17, d
  5788845944824356 17, d 5788845944824356 17, d 5788845944824356 17, d 1 0, d 5788845944824356 17, d
  5788845944824356 17, d 5788845944824356 17, d 5788845944824356 17, d 1 0, d 5788845944824356 17, d
  5788845944824356 17, d 5788845944824356 17, d 1 0, d 5788845944824356 17, d 5788845944824356 17, d
  5788845944824356 17, d 1 0, d 5788845944824356 17, d 5788845944824356 17, d 5788845944824356 17, d
  5788845944824356 17, d 1 0, d 5788845944824356 17, d 5788845944824356 17, d 5788845944824356 17, d
  5788845944824356 17, d 1 0, d 5788845944824356 17, d 5788845944824356 17, d 5788845944824356 17, d
  5788845944824356 17, d 1 0, d 5788845944824356 17, d 5788845944824356 17, d 5788845944824356 17, d 1 0, d
  5788845944824356 17, d 5788845944824356 17, d 1 0, d 5788845944824356 17, d 5788845944824356 17, d
  5788845944824356 17, d 1 0, d 5788845944824356 17, d 5788845944824356 17, d 5788845944824356 17, d 1 0, d
  5788845944824356 17, d 5788845944824356 17, d 5788845944824356 17, d 1 0, d 5788845944824356 17, d
  5788845944824356 17, d 1 0, d 1 0, d 15735714739564882 17, d 15735714739564882 17, d 1 0, d 1 0, d
  15735714739564882 17, d 15735714739564882 17, d 15735714739564882 17, d 1 0, d 1 0, d 15735714739564882 17, d
  15735714739564882 17, d 15735714739564882 17, d 1 0, d 1 0, d 15735714739564882 17, d 15735714739564882 17, d
  15735714739564882 17, d 1 0, d 1 0, d 15735714739564882 17, d 15735714739564882 17, d 1 0, d 1 0, d
  15735714739564882 17, d 15735714739564882 17, d 15735714739564882 17, d 1 0, d 1 0, d 15735714739564882 17, d
  15735714739564882 17, d 15735714739564882 17, d 15735714739564882 17, d 1 0, d 1 0, d 15735714739564882 17, d
  15735714739564882 17, d 15735714739564882 17, d 15735714739564882 17, d 1 0, d 1 0, d 15735714739564882 17, d
  15735714739564882 17, d 15735714739564882 17, d 15735714739564882 17, d 1 0, d 1 0, d 15735714739564882 17, d
  15735714739564882 17, d 15735714739564882 17, d 1 0, d 1 0, d 15735714739564882 17, d 15735714739564882 17, d
  15735714739564882 17, d 1 0, d 1 0, d 15735714739564882 17, d 15735714739564882 17, d 15735714739564882 17, d
  15735714739564882 17, d 1 0, d 1 0, d 15735714739564882 17, d 15735714739564882 17, d 15735714739564882 17, d
  15735714739564882 17, d 1 0, d 1 0, d 15735714739564882 17, d 15735714739564882 17, d 15735714739564882 17, d
  15735714739564882 17, d 1 0, d 1 0, d 15735714739564882 17, d 15735714739564882 17, d 15735714739564882 17, d
  1 0, d 1 0, d 15735714739564882 17, d 15735714739564882 17, d 15735714739564882 17, d 1 0, d 1 0, d
  15735714739564882 17, d 15735714739564882 17, d 15735714739564882 17, d 15735714739564882 17, d 1 0, d 1 0, d
  15735714739564882 17, d 15735714739564882 17, d 15735714739564882 17, d 15735714739564882 17, d 1 0, d 1 0, d
  15735714739564882 17, d 15735714739564882 17, d 15735714739564882 17, d 15735714739564882 17, d 1 0, d 1 0, d
  15735714739564882 17, d 15735714739564882 17, d 15735714739564882 17, d 1 0, d 1 0, d 15735714739564882 17, d
  15735714739564882 17, d 1 0, d 1 0, d 15735714739564882 17, d 15735714739564882 17, d 15735714739564882 17, d
  1 0, d 1 0, d 15735714739564882 17, d 15735714739564882 17, d 15735714739564882 17, d 1 0, d 1 0, d
  15735714739564882 17, d 15735714739564882 17, d 15735714739564882 17, d 1 0, d 1 0, d 15735714739564882 17, d
  15735714739564882 17, d 1 0, d 1 0, d 42774107434374375 17, d 42774107434374375 17, d 1 0, d 1 0, d
  42774107434374375 17, d 42774107434374375 17, d 42774107434374375 17, d 1 0, d 1 0, d 42774107434374375 17, d
  42774107434374375 17, d 42774107434374375 17, d 1 0, d 1 0, d 42774107434374375 17, d 42774107434374375 17, d
  42774107434374375 17, d 1 0, d 1 0, d 42774107434374375 17, d 42774107434374375 17, d 1 0, d 1 0, d
  42774107434374375 17, d 42774107434374375 17, d 42774107434374375 17, d 1 0, d 1 0, d 42774107434374375 17, d
  42774107434374375 17, d 42774107434374375 17, d 42774107434374375 17, d 1 0, d 1 0, d 42774107434374375 17, d
  42774107434374375 17, d 42774107434374375 17, d 42774107434374375 17, d 1 0, d 1 0, d 42774107434374375 17, d
  42774107434374375 17, d 42774107434374375 17, d 42774107434374375 17, d 1 0, d 1 0, d 42774107434374375 17, d
  42774107434374375 17, d 42774107434374375 17, d 1 0, d 1 0, d 42774107434374375 17, d 42774107434374375 17, d
  42774107434374375 17, d 1 0, d 1 0, d 42774107434374375 17, d 42774107434374375 17, d 42774107434374375 17, d
  42774107434374375 17, d 1 0, d 1 0, d 42774107434374375 17, d 42774107434374375 17, d 42774107434374375 17, d
  42774107434374375 17, d 1 0, d 1 0, d 42774107434374375 17, d 42774107434374375 17, d 42774107434374375 17, d
  42774107434374375 17, d 1 0, d 1 0, d 42774107434374375 17, d 42774107434374375 17, d 42774107434374375 17, d
  1 0, d 1 0, d 42774107434374375 17, d 42774107434374375 17, d 42774107434374375 17, d 1 0, d 1 0, d
  42774107434374375 17, d 42774107434374375 17, d 42774107434374375 17, d 42774107434374375 17, d 1 0, d 1 0, d
  42774107434374375 17, d 42774107434374375 17, d 42774107434374375 17, d 42774107434374375 17, d 1 0, d 1 0, d
  42774107434374375 17, d 42774107434374375 17, d 42774107434374375 17, d 42774107434374375 17, d 1 0, d 1 0, d
  42774107434374375 17, d 42774107434374375 17, d 42774107434374375 17, d 1 0, d 1 0, d 42774107434374375 17, d
  42774107434374375 17, d 1 0, d 1 0, d 42774107434374375 17, d 42774107434374375 17, d 42774107434374375 17, d
  1 0, d 1 0, d 42774107434374375 17, d 42774107434374375 17, d 42774107434374375 17, d 1 0, d 1 0, d
  42774107434374375 17, d 42774107434374375 17, d 42774107434374375 17, d 1 0, d 1 0, d 42774107434374375 17, d
  42774107434374375 17, d 1 0, d 1 0, d 1162720789674148 15, d 1162720789674148 15, d 1 0, d 1 0, d
  1162720789674148 15, d 1162720789674148 15, d 1162720789674148 15, d 1 0, d 1 0, d 1162720789674148 15, d
  1162720789674148 15, d 1162720789674148 15, d 1 0, d 1 0, d 1162720789674148 15, d 1162720789674148 15, d
  1162720789674148 15, d 1 0, d 1 0, d 1162720789674148 15, d 1162720789674148 15, d 1 0, d 1 0, d
  1162720789674148 15, d 1162720789674148 15, d 1162720789674148 15, d 1 0, d 1 0, d 1162720789674148 15, d
  1162720789674148 15, d 1162720789674148 15, d 1162720789674148 15, d 1 0, d 1 0, d 1162720789674148 15, d
  1162720789674148 15, d 1162720789674148 15, d 1162720789674148 15, d 1 0, d 1 0, d 1162720789674148 15, d
  1162720789674148 15, d 1162720789674148 15, d 1162720789674148 15, d 1 0, d 1 0, d 1162720789674148 15, d
  1162720789674148 15, d 1162720789674148 15, d 1 0, d 1 0, d 1162720789674148 15, d 1162720789674148 15, d
  1162720789674148 15, d 1 0, d 1 0, d 1162720789674148 15, d 1162720789674148 15, d 1162720789674148 15, d
  1162720789674148 15, d 1 0, d 1 0, d 1162720789674148 15, d 1162720789674148 15, d 1162720789674148 15, d
  1162720789674148 15, d 1 0, d 1 0, d 1162720789674148 15, d 1162720789674148 15, d 1162720789674148 15, d
  1162720789674148 15, d 1 0, d 1 0, d 1162720789674148 15, d 1162720789674148 15, d 1162720789674148 15, d 1 0,
  d 1 0, d 1162720789674148 15, d 1162720789674148 15, d 1162720789674148 15, d 1 0, d 1 0, d 1162720789674148
  15, d 1162720789674148 15, d 1162720789674148 15, d 1162720789674148 15, d 1 0, d 1 0, d 1162720789674148 15,
  d 1162720789674148 15, d 1162720789674148 15, d 1162720789674148 15, d 1 0, d 1 0, d 1162720789674148 15, d
  1162720789674148 15, d 1162720789674148 15, d 1162720789674148 15, d 1 0, d 1 0, d 1162720789674148 15, d
  1162720789674148 15, d 1162720789674148 15, d 1 0, d 1 0, d 1162720789674148 15, d 1162720789674148 15, d 1 0,
  d 1 0, d 1162720789674148 15, d 1162720789674148 15, d 1162720789674148 15, d 1 0, d 1 0, d 1162720789674148
  15, d 1162720789674148 15, d 1162720789674148 15, d 1 0, d 1 0, d 1162720789674148 15, d 1162720789674148 15,
  d 1162720789674148 15, d 1 0, d 1 0, d 1162720789674148 15, d 1162720789674148 15, d 1 0, d 1 0, d
  31606027941427888 16, d 31606027941427888 16, d 1 0, d 31606027941427888 16, d 31606027941427888 16, d
  31606027941427888 16, d 1 0, d 31606027941427888 16, d 31606027941427888 16, d 31606027941427888 16, d 1 0, d
  31606027941427888 16, d 31606027941427888 16, d 31606027941427888 16, d 1 0, d 31606027941427888 16, d
  31606027941427888 16, d 1 0, d 31606027941427888 16, d 31606027941427888 16, d 31606027941427888 16, d 1 0, d
  31606027941427888 16, d 31606027941427888 16, d 31606027941427888 16, d 31606027941427888 16, d 1 0, d
  31606027941427888 16, d 31606027941427888 16, d 31606027941427888 16, d 31606027941427888 16, d 1 0, d
  31606027941427888 16, d 31606027941427888 16, d 31606027941427888 16, d 31606027941427888 16, d 1 0, d
  31606027941427888 16, d 31606027941427888 16, d 31606027941427888 16, d 1 0, d 31606027941427888 16, d
  31606027941427888 16, d 31606027941427888 16, d 1 0, d 31606027941427888 16, d 31606027941427888 16, d
  31606027941427888 16, d 31606027941427888 16, d 1 0, d 31606027941427888 16, d 31606027941427888 16, d
  31606027941427888 16, d 31606027941427888 16, d 1 0, d 31606027941427888 16, d 31606027941427888 16, d
  31606027941427888 16, d 31606027941427888 16, d 1 0, d 31606027941427888 16, d 31606027941427888 16, d
  31606027941427888 16, d 1 0, d 31606027941427888 16, d 31606027941427888 16, d 31606027941427888 16, d 1 0, d
  31606027941427888 16, d 31606027941427888 16, d 31606027941427888 16, d 31606027941427888 16, d 1 0, d
  31606027941427888 16, d 31606027941427888 16, d 31606027941427888 16, d 31606027941427888 16, d 1 0, d
  31606027941427888 16, d 31606027941427888 16, d 31606027941427888 16, d 31606027941427888 16, d 1 0, d
  31606027941427888 16, d 31606027941427888 16, d 31606027941427888 16, d 1 0, d 31606027941427888 16, d
  31606027941427888 16, d 1 0, d 31606027941427888 16, d 31606027941427888 16, d 31606027941427888 16, d 1 0, d
  31606027941427888 16, d 31606027941427888 16, d 31606027941427888 16, d 1 0, d 31606027941427888 16, d
  31606027941427888 16, d 31606027941427888 16, d 1 0, d 31606027941427888 16, d 31606027941427888 16], [3, 2,
  2, 2, 3, 2, 1, 1, 1, 2, 2, 1, 1, 1, 2, 2, 1, 1, 1, 2, 3, 2, 2, 2, 3, 2, 1, 1, 1, 2, 1, 0, 0, 0, 1, 1, 0, 0, 0,
  1, 1, 0, 0, 0, 1, 2, 1, 1, 1, 2, 2, 1, 1, 1, 2, 1, 0, 0, 0, 1, 1, 0, 0, 0, 1, 1, 0, 0, 0, 1, 2, 1, 1, 1, 2, 2,
  1, 1, 1, 2, 1, 0, 0, 0, 1, 1, 0, 0, 0, 1, 1, 0, 0, 0, 1, 2, 1, 1, 1, 2, 3, 2, 2, 2, 3, 2, 1, 1, 1, 2, 2, 1, 1,
  1, 2, 2, 1, 1, 1, 2, 3, 2, 2, 2, 3], [d 5788845944824356 17, d 5788845944824356 17, d 5788845944824356 17, d
  5788845944824356 17, d 5788845944824356 17, d 5788845944824356 17, d 5788845944824356 17, d 5788845944824356
  17, d 5788845944824356 17, d 5788845944824356 17, d 5788845944824356 17, d 5788845944824356 17, d
  5788845944824356 17, d 5788845944824356 17, d 5788845944824356 17, d 5788845944824356 17, d 5788845944824356
  17, d 5788845944824356 17, d 5788845944824356 17, d 5788845944824356 17, d 5788845944824356 17, d
  5788845944824356 17, d 5788845944824356 17, d 5788845944824356 17, d 5788845944824356 17, d 15735714739564882
  17, d 15735714739564882 17, d 15735714739564882 17, d 15735714739564882 17, d 15735714739564882 17, d
  15735714739564882 17, d 15735714739564882 17, d 15735714739564882 17, d 15735714739564882 17, d
  15735714739564882 17, d 15735714739564882 17, d 15735714739564882 17, d 15735714739564882 17, d
  15735714739564882 17, d 15735714739564882 17, d 15735714739564882 17, d 15735714739564882 17, d
  15735714739564882 17, d 15735714739564882 17, d 15735714739564882 17, d 15735714739564882 17, d
  15735714739564882 17, d 15735714739564882 17, d 15735714739564882 17, d 15735714739564882 17, d
  42774107434374375 17, d 42774107434374375 17, d 42774107434374375 17, d 42774107434374375 17, d
  42774107434374375 17, d 42774107434374375 17, d 42774107434374375 17, d 42774107434374375 17, d
  42774107434374375 17, d 42774107434374375 17, d 42774107434374375 17, d 42774107434374375 17, d
  42774107434374375 17, d 42774107434374375 17, d 42774107434374375 17, d 42774107434374375 17, d
  42774107434374375 17, d 42774107434374375 17, d 42774107434374375 17, d 42774107434374375 17, d
  42774107434374375 17, d 42774107434374375 17, d 42774107434374375 17, d 42774107434374375 17, d
  42774107434374375 17, d 1162720789674148 15, d 1162720789674148 15, d 1162720789674148 15, d 1162720789674148
  15, d 1162720789674148 15, d 1162720789674148 15, d 1162720789674148 15, d 1162720789674148 15, d
  1162720789674148 15, d 1162720789674148 15, d 1162720789674148 15, d 1162720789674148 15, d 1162720789674148
  15, d 1162720789674148 15, d 1162720789674148 15, d 1162720789674148 15, d 1162720789674148 15, d
  1162720789674148 15, d 1162720789674148 15, d 1162720789674148 15, d 1162720789674148 15, d 1162720789674148
  15, d 1162720789674148 15, d 1162720789674148 15, d 1162720789674148 15, d 31606027941427888 16, d
  31606027941427888 16, d 31606027941427888 16, d 31606027941427888 16, d 31606027941427888 16, d
  31606027941427888 16, d 31606027941427888 16, d 31606027941427888 16, d 31606027941427888 16, d
  31606027941427888 16, d 31606027941427888 16, d 31606027941427888 16, d 31606027941427888 16, d
  31606027941427888 16, d 31606027941427888 16, d 31606027941427888 16, d 31606027941427888 16, d
  31606027941427888 16, d 31606027941427888 16, d 31606027941427888 16, d 31606027941427888 16, d
  31606027941427888 16, d 31606027941427888 16, d 31606027941427888 16, d 31606027941427888 16], [[d 5 1, d 5 1,
  d 6263396471954912 17], [d 15 1, d 5 1, d 6263396471954912 17], [d 25 1, d 5 1, d 6263396471954912 17], [d 35
  1, d 5 1, d 6263396471954912 17], [d 45 1, d 5 1, d 6263396471954912 17], [d 5 1, d 15 1, d 6263396471954912
  17], [d 15 1, d 15 1, d 6263396471954912 17], [d 25 1, d 15 1, d 6263396471954912 17], [d 35 1, d 15 1, d
  6263396471954912 17], [d 45 1, d 15 1, d 6263396471954912 17], [d 5 1, d 25 1, d 6263396471954912 17], [d 15
  1, d 25 1, d 6263396471954912 17], [d 25 1, d 25 1, d 6263396471954912 17], [d 35 1, d 25 1, d
  6263396471954912 17], [d 45 1, d 25 1, d 6263396471954912 17], [d 5 1, d 35 1, d 6263396471954912 17], [d 15
  1, d 35 1, d 6263396471954912 17], [d 25 1, d 35 1, d 6263396471954912 17], [d 35 1, d 35 1, d
  6263396471954912 17], [d 45 1, d 35 1, d 6263396471954912 17], [d 5 1, d 45 1, d 6263396471954912 17], [d 15
  1, d 45 1, d 6263396471954912 17], [d 25 1, d 45 1, d 6263396471954912 17], [d 35 1, d 45 1, d
  6263396471954912 17], [d 45 1, d 45 1, d 6263396471954912 17], [d 5 1, d 5 1, d 1702567681414953 16], [d 15 1,
  d 5 1, d 1702567681414953 16], [d 25 1, d 5 1, d 1702567681414953 16], [d 35 1, d 5 1, d 1702567681414953 16],
  [d 45 1, d 5 1, d 1702567681414953 16], [d 5 1, d 15 1, d 1702567681414953 16], [d 15 1, d 15 1, d
  1702567681414953 16], [d 25 1, d 15 1, d 1702567681414953 16], [d 35 1, d 15 1, d 1702567681414953 16], [d 45
  1, d 15 1, d 1702567681414953 16], [d 5 1, d 25 1, d 1702567681414953 16], [d 15 1, d 25 1, d 1702567681414953
  16], [d 25 1, d 25 1, d 1702567681414953 16], [d 35 1, d 25 1, d 1702567681414953 16], [d 45 1, d 25 1, d
  1702567681414953 16], [d 5 1, d 35 1, d 1702567681414953 16], [d 15 1, d 35 1, d 1702567681414953 16], [d 25
  1, d 35 1, d 1702567681414953 16], [d 35 1, d 35 1, d 1702567681414953 16], [d 45 1, d 35 1, d
  1702567681414953 16], [d 5 1, d 45 1, d 1702567681414953 16], [d 15 1, d 45 1, d 1702567681414953 16], [d 25
  1, d 45 1, d 1702567681414953 16], [d 35 1, d 45 1, d 1702567681414953 16], [d 45 1, d 45 1, d
  1702567681414953 16], [d 5 1, d 5 1, d 46280587901119163 17], [d 15 1, d 5 1, d 46280587901119163 17], [d 25
  1, d 5 1, d 46280587901119163 17], [d 35 1, d 5 1, d 46280587901119163 17], [d 45 1, d 5 1, d
  46280587901119163 17], [d 5 1, d 15 1, d 46280587901119163 17], [d 15 1, d 15 1, d 46280587901119163 17], [d
  25 1, d 15 1, d 46280587901119163 17], [d 35 1, d 15 1, d 46280587901119163 17], [d 45 1, d 15 1, d
  46280587901119163 17], [d 5 1, d 25 1, d 46280587901119163 17], [d 15 1, d 25 1, d 46280587901119163 17], [d
  25 1, d 25 1, d 46280587901119163 17], [d 35 1, d 25 1, d 46280587901119163 17], [d 45 1, d 25 1, d
  46280587901119163 17], [d 5 1, d 35 1, d 46280587901119163 17], [d 15 1, d 35 1, d 46280587901119163 17], [d
  25 1, d 35 1, d 46280587901119163 17], [d 35 1, d 35 1, d 46280587901119163 17], [d 45 1, d 35 1, d
  46280587901119163 17], [d 5 1, d 45 1, d 46280587901119163 17], [d 15 1, d 45 1, d 46280587901119163 17], [d
  25 1, d 45 1, d 46280587901119163 17], [d 35 1, d 45 1, d 46280587901119163 17], [d 45 1, d 45 1, d
  46280587901119163 17], [d 5 1, d 5 1, d 12580368110201376 16], [d 15 1, d 5 1, d 12580368110201376 16], [d 25
  1, d 5 1, d 12580368110201376 16], [d 35 1, d 5 1, d 12580368110201376 16], [d 45 1, d 5 1, d
  12580368110201376 16], [d 5 1, d 15 1, d 12580368110201376 16], [d 15 1, d 15 1, d 12580368110201376 16], [d
  25 1, d 15 1, d 12580368110201376 16], [d 35 1, d 15 1, d 12580368110201376 16], [d 45 1, d 15 1, d
  12580368110201376 16], [d 5 1, d 25 1, d 12580368110201376 16], [d 15 1, d 25 1, d 12580368110201376 16], [d
  25 1, d 25 1, d 12580368110201376 16], [d 35 1, d 25 1, d 12580368110201376 16], [d 45 1, d 25 1, d
  12580368110201376 16], [d 5 1, d 35 1, d 12580368110201376 16], [d 15 1, d 35 1, d 12580368110201376 16], [d
  25 1, d 35 1, d 12580368110201376 16], [d 35 1, d 35 1, d 12580368110201376 16], [d 45 1, d 35 1, d
  12580368110201376 16], [d 5 1, d 45 1, d 12580368110201376 16], [d 15 1, d 45 1, d 12580368110201376 16], [d
  25 1, d 45 1, d 12580368110201376 16], [d 35 1, d 45 1, d 12580368110201376 16], [d 45 1, d 45 1, d
  12580368110201376 16], [d 5 1, d 5 1, d 34196986029286056 16], [d 15 1, d 5 1, d 34196986029286056 16], [d 25
  1, d 5 1, d 34196986029286056 16], [d 35 1, d 5 1, d 34196986029286056 16], [d 45 1, d 5 1, d
  34196986029286056 16], [d 5 1, d 15 1, d 34196986029286056 16], [d 15 1, d 15 1, d 34196986029286056 16], [d
  25 1, d 15 1, d 34196986029286056 16], [d 35 1, d 15 1, d 34196986029286056 16], [d 45 1, d 15 1, d
  34196986029286056 16], [d 5 1, d 25 1, d 34196986029286056 16], [d 15 1, d 25 1, d 34196986029286056 16], [d
  25 1, d 25 1, d 34196986029286056 16], [d 35 1, d 25 1, d 34196986029286056 16], [d 45 1, d 25 1, d
  34196986029286056 16], [d 5 1, d 35 1, d 34196986029286056 16], [d 15 1, d 35 1, d 34196986029286056 16], [d
  25 1, d 35 1, d 34196986029286056 16], [d 35 1, d 35 1, d 34196986029286056 16], [d 45 1, d 35 1, d
  34196986029286056 16], [d 5 1, d 45 1, d 34196986029286056 16], [d 15 1, d 45 1, d 34196986029286056 16], [d
  25 1, d 45 1, d 34196986029286056 16], [d 35 1, d 45 1, d 34196986029286056 16], [d 45 1, d 45 1, d
  34196986029286056 16]]⟩

/-- `DualGEx_aniso_3cell` (tests/DualGraphExamples.h:113-127) -/
def aniso3 : Mesh :=
  ⟨[0, 2, 5, 8, 11, 14, 17, 21, 25, 29, 33, 37, 40, 44, 48, 52, 56, 59, 63, 66, 69, 71, 74, 77, 80, 82, 85, 88,
  90], [1, 11, 0, 2, 10, 1, 3, 9, 2, 4, 8, 3, 5, 7, 4, 24, 6, 5, 7, 25, 17, 4, 8, 6, 15, 3, 9, 7, 13, 2, 10, 8,
  12, 1, 11, 9, 14, 0, 10, 16, 9, 14, 13, 23, 8, 12, 15, 21, 10, 16, 12, 22, 7, 13, 17, 19, 11, 14, 20, 6, 15,
  26, 18, 17, 19, 27, 15, 21, 18, 16, 22, 13, 23, 19, 14, 20, 23, 12, 22, 21, 5, 25, 6, 24, 26, 17, 25, 27, 18,
  26], [d 1 0, d 2 1, d 1 0, d 1 0, d 2 1, d 1 0, d 1 0, d 2 1, d 1 0, d 1 0, d 2 1, d 1 0, d 1 0, d 2 1, d 1 0,
  d 1 0, d 1 0, d 1 0, d 1 0, d 1 0, d 1 0, d 2 1, d 1 0, d 1 0, d 2 1, d 2 1, d 1 0, d 1 0, d 2 1, d 2 1, d 1
  0, d 1 0, d 2 1, d 2 1, d 1 0, d 1 0, d 2 1, d 2 1, d 1 0, d 2 1, d 2 1, d 1 0, d 1 0, d 2 1, d 2 1, d 1 0, d
  1 0, d 2 1, d 2 1, d 1 0, d 1 0, d 2 1, d 2 1, d 1 0, d 1 0, d 2 1, d 2 1, d 1 0, d 2 1, d 1 0, d 1 0, d 1 0,
  d 1 0, d 1 0, d 1 0, d 1 0, d 2 1, d 1 0, d 1 0, d 2 1, d 1 0, d 2 1, d 1 0, d 1 0, d 2 1, d 1 0, d 1 0, d 2
  1, d 1 0, d 1 0, d 1 0, d 1 0, d 1 0, d 1 0, d 1 0, d 1 0, d 1 0, d 1 0, d 1 0, d 1 0], [2, 1, 1, 1, 1, 1, 0,
  0, 0, 0, 0, 1, 0, 0, 0, 0, 1, 0, 1, 1, 2, 1, 1, 1, 2, 1, 1, 2], [d 2 1, d 2 1, d 2 1, d 2 1, d 2 1, d 1 0, d 1
  0, d 2 1, d 2 1, d 2 1, d 2 1, d 2 1, d 2 1, d 2 1, d 2 1, d 2 1, d 2 1, d 1 0, d 1 0, d 2 1, d 2 1, d 2 1, d
  2 1, d 2 1, d 1 0, d 1 0, d 1 0, d 1 0], [[d 5 1, d 1 1], [d 5 1, d 3 1], [d 5 1, d 5 1], [d 5 1, d 7 1], [d 5
  1, d 9 1], [d 5 1, d 15 1], [d 15 1, d 15 1], [d 15 1, d 9 1], [d 15 1, d 7 1], [d 15 1, d 5 1], [d 15 1, d 3
  1], [d 15 1, d 1 1], [d 25 1, d 5 1], [d 25 1, d 7 1], [d 25 1, d 3 1], [d 25 1, d 9 1], [d 25 1, d 1 1], [d
  25 1, d 15 1], [d 35 1, d 15 1], [d 35 1, d 9 1], [d 35 1, d 1 1], [d 35 1, d 7 1], [d 35 1, d 3 1], [d 35 1,
  d 5 1], [d 5 1, d 25 1], [d 15 1, d 25 1], [d 25 1, d 25 1], [d 35 1, d 25 1]]⟩

/-- `DualGEx_minimal` (tests/DualGraphExamples.h:129-141) -/
def minimal : Mesh :=
  ⟨[0, 2, 5, 7, 10, 14, 17, 19, 22, 24], [1, 3, 0, 2, 4, 1, 5, 0, 4, 6, 1, 3, 5, 7, 2, 4, 8, 3, 7, 4, 6, 8, 5,
  7], [d 1 0, d 1 0, d 1 0, d 1 0, d 1 0, d 1 0, d 1 0, d 1 0, d 1 0, d 1 0, d 1 0, d 1 0, d 1 0, d 1 0, d 1 0,
  d 1 0, d 1 0, d 1 0, d 1 0, d 1 0, d 1 0, d 1 0, d 1 0, d 1 0], [2, 1, 2, 1, 0, 1, 2, 1, 2], [d 1 0, d 1 0, d
  1 0, d 1 0, d 1 0, d 1 0, d 1 0, d 1 0, d 1 0], [[d 5 1, d 5 1], [d 15 1, d 5 1], [d 25 1, d 5 1], [d 5 1, d
  15 1], [d 15 1, d 15 1], [d 25 1, d 15 1], [d 5 1, d 25 1], [d 15 1, d 25 1], [d 25 1, d 25 1]]⟩

/-- `DualGEx_quad_3` (tests/DualGraphExamples.h:143-155) -/
def quad3 : Mesh :=
  ⟨[0, 2, 5, 7, 10, 14, 17, 19, 22, 24], [1, 3, 0, 2, 4, 1, 5, 0, 4, 6, 1, 3, 5, 7, 2, 4, 8, 3, 7, 4, 6, 8, 5,
  7], [d 1 0, d 1 0, d 1 0, d 1 0, d 1 0, d 1 0, d 1 0, d 1 0, d 1 0, d 1 0, d 1 0, d 1 0, d 1 0, d 1 0, d 1 0,
  d 1 0, d 1 0, d 1 0, d 1 0, d 1 0, d 1 0, d 1 0, d 1 0, d 1 0], [2, 1, 2, 1, 0, 1, 2, 1, 2], [d 1 0, d 1 0, d
  1 0, d 1 0, d 1 0, d 1 0, d 1 0, d 1 0, d 1 0], [[d 5 1, d 5 1], [d 15 1, d 5 1], [d 25 1, d 5 1], [d 5 1, d
  15 1], [d 15 1, d 15 1], [d 25 1, d 15 1], [d 5 1, d 25 1], [d 15 1, d 25 1], [d 25 1, d 25 1]]⟩

/-- `DualGEx_quad_4` (tests/DualGraphExamples.h:157-169) -/
def quad4 : Mesh :=
  ⟨[0, 2, 5, 8, 10, 13, 17, 21, 24, 27, 31, 35, 38, 40, 43, 46, 48], [1, 4, 0, 2, 5, 1, 3, 6, 2, 7, 0, 5, 8, 1,
  4, 6, 9, 2, 5, 7, 10, 3, 6, 11, 4, 9, 12, 5, 8, 10, 13, 6, 9, 11, 14, 7, 10, 15, 8, 13, 9, 12, 14, 10, 13, 15,
  11, 14], [d 1 0, d 1 0, d 1 0, d 1 0, d 1 0, d 1 0, d 1 0, d 1 0, d 1 0, d 1 0, d 1 0, d 1 0, d 1 0, d 1 0, d
  1 0, d 1 0, d 1 0, d 1 0, d 1 0, d 1 0, d 1 0, d 1 0, d 1 0, d 1 0, d 1 0, d 1 0, d 1 0, d 1 0, d 1 0, d 1 0,
  d 1 0, d 1 0, d 1 0, d 1 0, d 1 0, d 1 0, d 1 0, d 1 0, d 1 0, d 1 0, d 1 0, d 1 0, d 1 0, d 1 0, d 1 0, d 1
  0, d 1 0, d 1 0], [2, 1, 1, 2, 1, 0, 0, 1, 1, 0, 0, 1, 2, 1, 1, 2], [d 1 0, d 1 0, d 1 0, d 1 0, d 1 0, d 1 0,
  d 1 0, d 1 0, d 1 0, d 1 0, d 1 0, d 1 0, d 1 0, d 1 0, d 1 0, d 1 0], [[d 5 1, d 5 1], [d 15 1, d 5 1], [d 25
  1, d 5 1], [d 35 1, d 5 1], [d 5 1, d 15 1], [d 15 1, d 15 1], [d 25 1, d 15 1], [d 35 1, d 15 1], [d 5 1, d
  25 1], [d 15 1, d 25 1], [d 25 1, d 25 1], [d 35 1, d 25 1], [d 5 1, d 35 1], [d 15 1, d 35 1], [d 25 1, d 35
  1], [d 35 1, d 35 1]]⟩

/-- `DualGEx_quad_7` (tests/DualGraphExamples.h:171-188) -/
def quad7 : Mesh :=
  ⟨[0, 2, 5, 8, 11, 14, 17, 19, 22, 26, 30, 34, 38, 42, 45, 48, 52, 56, 60, 64, 68, 71, 74, 78, 82, 86, 90, 94,
  97, 100, 104, 108, 112, 116, 120, 123, 126, 130, 134, 138, 142, 146, 149, 151, 154, 157, 160, 163, 166, 168],
  [1, 7, 0, 2, 8, 1, 3, 9, 2, 4, 10, 3, 5, 11, 4, 6, 12, 5, 13, 0, 8, 14, 1, 7, 9, 15, 2, 8, 10, 16, 3, 9, 11,
  17, 4, 10, 12, 18, 5, 11, 13, 19, 6, 12, 20, 7, 15, 21, 8, 14, 16, 22, 9, 15, 17, 23, 10, 16, 18, 24, 11, 17,
  19, 25, 12, 18, 20, 26, 13, 19, 27, 14, 22, 28, 15, 21, 23, 29, 16, 22, 24, 30, 17, 23, 25, 31, 18, 24, 26,
  32, 19, 25, 27, 33, 20, 26, 34, 21, 29, 35, 22, 28, 30, 36, 23, 29, 31, 37, 24, 30, 32, 38, 25, 31, 33, 39,
  26, 32, 34, 40, 27, 33, 41, 28, 36, 42, 29, 35, 37, 43, 30, 36, 38, 44, 31, 37, 39, 45, 32, 38, 40, 46, 33,
  39, 41, 47, 34, 40, 48, 35, 43, 36, 42, 44, 37, 43, 45, 38, 44, 46, 39, 45, 47, 40, 46, 48, 41, 47], [d 1 0, d
  1 0, d 1 0, d 1 0, d 1 0, d 1 0, d 1 0, d 1 0, d 1 0, d 1 0, d 1 0, d 1 0, d 1 0, d 1 0, d 1 0, d 1 0, d 1 0,
  d 1 0, d 1 0, d 1 0, d 1 0, d 1 0, d 1 0, d 1 0, d 1 0, d 1 0, d 1 0, d 1 0, d 1 0, d 1 0, d 1 0, d 1 0, d 1
  0, d 1 0, d 1 0, d 1 0, d 1 0, d 1 0, d 1 0, d 1 0, d 1 0, d 1 0, d 1 0, d 1 0, d 1 0, d 1 0, d 1 0, d 1 0, d
  1 0, d 1 0, d 1 0, d 1 0, d 1 0, d 1 0, d 1 0, d 1 0, d 1 0, d 1 0, d 1 0, d 1 0, d 1 0, d 1 0, d 1 0, d 1 0,
  d 1 0, d 1 0, d 1 0, d 1 0, d 1 0, d 1 0, d 1 0, d 1 0, d 1 0, d 1 0, d 1 0, d 1 0, d 1 0, d 1 0, d 1 0, d 1
  0, d 1 0, d 1 0, d 1 0, d 1 0, d 1 0, d 1 0, d 1 0, d 1 0, d 1 0, d 1 0, d 1 0, d 1 0, d 1 0, d 1 0, d 1 0, d
  1 0, d 1 0, d 1 0, d 1 0, d 1 0, d 1 0, d 1 0, d 1 0, d 1 0, d 1 0, d 1 0, d 1 0, d 1 0, d 1 0, d 1 0, d 1 0,
  d 1 0, d 1 0, d 1 0, d 1 0, d 1 0, d 1 0, d 1 0, d 1 0, d 1 0, d 1 0, d 1 0, d 1 0, d 1 0, d 1 0, d 1 0, d 1
  0, d 1 0, d 1 0, d 1 0, d 1 0, d 1 0, d 1 0, d 1 0, d 1 0, d 1 0, d 1 0, d 1 0, d 1 0, d 1 0, d 1 0, d 1 0, d
  1 0, d 1 0, d 1 0, d 1 0, d 1 0, d 1 0, d 1 0, d 1 0, d 1 0, d 1 0, d 1 0, d 1 0, d 1 0, d 1 0, d 1 0, d 1 0,
  d 1 0, d 1 0, d 1 0, d 1 0, d 1 0, d 1 0, d 1 0, d 1 0, d 1 0, d 1 0], [2, 1, 1, 1, 1, 1, 2, 1, 0, 0, 0, 0, 0,
  1, 1, 0, 0, 0, 0, 0, 1, 1, 0, 0, 0, 0, 0, 1, 1, 0, 0, 0, 0, 0, 1, 1, 0, 0, 0, 0, 0, 1, 2, 1, 1, 1, 1, 1, 2],
  [d 1 0, d 1 0, d 1 0, d 1 0, d 1 0, d 1 0, d 1 0, d 1 0, d 1 0, d 1 0, d 1 0, d 1 0, d 1 0, d 1 0, d 1 0, d 1
  0, d 1 0, d 1 0, d 1 0, d 1 0, d 1 0, d 1 0, d 1 0, d 1 0, d 1 0, d 1 0, d 1 0, d 1 0, d 1 0, d 1 0, d 1 0, d
  1 0, d 1 0, d 1 0, d 1 0, d 1 0, d 1 0, d 1 0, d 1 0, d 1 0, d 1 0, d 1 0, d 1 0, d 1 0, d 1 0, d 1 0, d 1 0,
  d 1 0, d 1 0], [[d 5 1, d 5 1], [d 15 1, d 5 1], [d 25 1, d 5 1], [d 35 1, d 5 1], [d 45 1, d 5 1], [d 55 1, d
  5 1], [d 65 1, d 5 1], [d 5 1, d 15 1], [d 15 1, d 15 1], [d 25 1, d 15 1], [d 35 1, d 15 1], [d 45 1, d 15
  1], [d 55 1, d 15 1], [d 65 1, d 15 1], [d 5 1, d 25 1], [d 15 1, d 25 1], [d 25 1, d 25 1], [d 35 1, d 25 1],
  [d 45 1, d 25 1], [d 55 1, d 25 1], [d 65 1, d 25 1], [d 5 1, d 35 1], [d 15 1, d 35 1], [d 25 1, d 35 1], [d
  35 1, d 35 1], [d 45 1, d 35 1], [d 55 1, d 35 1], [d 65 1, d 35 1], [d 5 1, d 45 1], [d 15 1, d 45 1], [d 25
  1, d 45 1], [d 35 1, d 45 1], [d 45 1, d 45 1], [d 55 1, d 45 1], [d 65 1, d 45 1], [d 5 1, d 55 1], [d 15 1,
  d 55 1], [d 25 1, d 55 1], [d 35 1, d 55 1], [d 45 1, d 55 1], [d 55 1, d 55 1], [d 65 1, d 55 1], [d 5 1, d
  65 1], [d 15 1, d 65 1], [d 25 1, d 65 1], [d 35 1, d 65 1], [d 45 1, d 65 1], [d 55 1, d 65 1], [d 65 1, d 65
  1]]⟩

/-- `DualGEx_cube_4` (tests/DualGraphExamples.h:190-211) -/
def cube4 : Mesh :=
  ⟨[0, 3, 7, 11, 14, 18, 23, 28, 32, 36, 41, 46, 50, 53, 57, 61, 64, 68, 73, 78, 82, 87, 93, 99, 104, 109, 115,
  121, 126, 130, 135, 140, 144, 148, 153, 158, 162, 167, 173, 179, 184, 189, 195, 201, 206, 210, 215, 220, 224,
  227, 231, 235, 238, 242, 247, 252, 256, 260, 265, 270, 274, 277, 281, 285, 288], [1, 4, 16, 0, 2, 5, 17, 1, 3,
  6, 18, 2, 7, 19, 0, 5, 8, 20, 1, 4, 6, 9, 21, 2, 5, 7, 10, 22, 3, 6, 11, 23, 4, 9, 12, 24, 5, 8, 10, 13, 25,
  6, 9, 11, 14, 26, 7, 10, 15, 27, 8, 13, 28, 9, 12, 14, 29, 10, 13, 15, 30, 11, 14, 31, 0, 17, 20, 32, 1, 16,
  18, 21, 33, 2, 17, 19, 22, 34, 3, 18, 23, 35, 4, 16, 21, 24, 36, 5, 17, 20, 22, 25, 37, 6, 18, 21, 23, 26, 38,
  7, 19, 22, 27, 39, 8, 20, 25, 28, 40, 9, 21, 24, 26, 29, 41, 10, 22, 25, 27, 30, 42, 11, 23, 26, 31, 43, 12,
  24, 29, 44, 13, 25, 28, 30, 45, 14, 26, 29, 31, 46, 15, 27, 30, 47, 16, 33, 36, 48, 17, 32, 34, 37, 49, 18,
  33, 35, 38, 50, 19, 34, 39, 51, 20, 32, 37, 40, 52, 21, 33, 36, 38, 41, 53, 22, 34, 37, 39, 42, 54, 23, 35,
  38, 43, 55, 24, 36, 41, 44, 56, 25, 37, 40, 42, 45, 57, 26, 38, 41, 43, 46, 58, 27, 39, 42, 47, 59, 28, 40,
  45, 60, 29, 41, 44, 46, 61, 30, 42, 45, 47, 62, 31, 43, 46, 63, 32, 49, 52, 33, 48, 50, 53, 34, 49, 51, 54,
  35, 50, 55, 36, 48, 53, 56, 37, 49, 52, 54, 57, 38, 50, 53, 55, 58, 39, 51, 54, 59, 40, 52, 57, 60, 41, 53,
  56, 58, 61, 42, 54, 57, 59, 62, 43, 55, 58, 63, 44, 56, 61, 45, 57, 60, 62, 46, 58, 61, 63, 47, 59, 62], [d 1
  0, d 1 0, d 1 0, d 1 0, d 1 0, d 1 0, d 1 0, d 1 0, d 1 0, d 1 0, d 1 0, d 1 0, d 1 0, d 1 0, d 1 0, d 1 0, d
  1 0, d 1 0, d 1 0, d 1 0, d 1 0, d 1 0, d 1 0, d 1 0, d 1 0, d 1 0, d 1 0, d 1 0, d 1 0, d 1 0, d 1 0, d 1 0,
  d 1 0, d 1 0, d 1 0, d 1 0, d 1 0, d 1 0, d 1 0, d 1 0, d 1 0, d 1 0, d 1 0, d 1 0, d 1 0, d 1 0, d 1 0, d 1
  0, d 1 0, d 1 0, d 1 0, d 1 0, d 1 0, d 1 0, d 1 0, d 1 0, d 1 0, d 1 0, d 1 0, d 1 0, d 1 0, d 1 0, d 1 0, d
  1 0, d 1 0, d 1 0, d 1 0, d 1 0, d 1 0, d 1 0, d 1 0, d 1 0, d 1 0, d 1 0, d 1 0, d 1 0, d 1 0, d 1 0, d 1 0,
  d 1 0, d 1 0, d 1 0, d 1 0, d 1 0, d 1 0, d 1 0, d 1 0, d 1 0, d 1 0, d 1 0, d 1 0, d 1 0, d 1 0, d 1 0, d 1
  0, d 1 0, d 1 0, d 1 0, d 1 0, d 1 0, d 1 0, d 1 0, d 1 0, d 1 0, d 1 0, d 1 0, d 1 0, d 1 0, d 1 0, d 1 0, d
  1 0, d 1 0, d 1 0, d 1 0, d 1 0, d 1 0, d 1 0, d 1 0, d 1 0, d 1 0, d 1 0, d 1 0, d 1 0, d 1 0, d 1 0, d 1 0,
  d 1 0, d 1 0, d 1 0, d 1 0, d 1 0, d 1 0, d 1 0, d 1 0, d 1 0, d 1 0, d 1 0, d 1 0, d 1 0, d 1 0, d 1 0, d 1
  0, d 1 0, d 1 0, d 1 0, d 1 0, d 1 0, d 1 0, d 1 0, d 1 0, d 1 0, d 1 0, d 1 0, d 1 0, d 1 0, d 1 0, d 1 0, d
  1 0, d 1 0, d 1 0, d 1 0, d 1 0, d 1 0, d 1 0, d 1 0, d 1 0, d 1 0, d 1 0, d 1 0, d 1 0, d 1 0, d 1 0, d 1 0,
  d 1 0, d 1 0, d 1 0, d 1 0, d 1 0, d 1 0, d 1 0, d 1 0, d 1 0, d 1 0, d 1 0, d 1 0, d 1 0, d 1 0, d 1 0, d 1
  0, d 1 0, d 1 0, d 1 0, d 1 0, d 1 0, d 1 0, d 1 0, d 1 0, d 1 0, d 1 0, d 1 0, d 1 0, d 1 0, d 1 0, d 1 0, d
  1 0, d 1 0, d 1 0, d 1 0, d 1 0, d 1 0, d 1 0, d 1 0, d 1 0, d 1 0, d 1 0, d 1 0, d 1 0, d 1 0, d 1 0, d 1 0,
  d 1 0, d 1 0, d 1 0, d 1 0, d 1 0, d 1 0, d 1 0, d 1 0, d 1 0, d 1 0, d 1 0, d 1 0, d 1 0, d 1 0, d 1 0, d 1
  0, d 1 0, d 1 0, d 1 0, d 1 0, d 1 0, d 1 0, d 1 0, d 1 0, d 1 0, d 1 0, d 1 0, d 1 0, d 1 0, d 1 0, d 1 0, d
  1 0, d 1 0, d 1 0, d 1 0, d 1 0, d 1 0, d 1 0, d 1 0, d 1 0, d 1 0, d 1 0, d 1 0, d 1 0, d 1 0, d 1 0, d 1 0,
  d 1 0, d 1 0, d 1 0, d 1 0, d 1 0, d 1 0, d 1 0, d 1 0, d 1 0, d 1 0, d 1 0, d 1 0, d 1 0, d 1 0, d 1 0, d 1
  0, d 1 0, d 1 0, d 1 0, d 1 0, d 1 0], [3, 2, 2, 3, 2, 1, 1, 2, 2, 1, 1, 2, 3, 2, 2, 3, 2, 1, 1, 2, 1, 0, 0,
  1, 1, 0, 0, 1, 2, 1, 1, 2, 2, 1, 1, 2, 1, 0, 0, 1, 1, 0, 0, 1, 2, 1, 1, 2, 3, 2, 2, 3, 2, 1, 1, 2, 2, 1, 1, 2,
  3, 2, 2, 3], [d 1 0, d 1 0, d 1 0, d 1 0, d 1 0, d 1 0, d 1 0, d 1 0, d 1 0, d 1 0, d 1 0, d 1 0, d 1 0, d 1
  0, d 1 0, d 1 0, d 1 0, d 1 0, d 1 0, d 1 0, d 1 0, d 1 0, d 1 0, d 1 0, d 1 0, d 1 0, d 1 0, d 1 0, d 1 0, d
  1 0, d 1 0, d 1 0, d 1 0, d 1 0, d 1 0, d 1 0, d 1 0, d 1 0, d 1 0, d 1 0, d 1 0, d 1 0, d 1 0, d 1 0, d 1 0,
  d 1 0, d 1 0, d 1 0, d 1 0, d 1 0, d 1 0, d 1 0, d 1 0, d 1 0, d 1 0, d 1 0, d 1 0, d 1 0, d 1 0, d 1 0, d 1
  0, d 1 0, d 1 0, d 1 0], [[d 5 1, d 5 1, d 5 1], [d 15 1, d 5 1, d 5 1], [d 25 1, d 5 1, d 5 1], [d 35 1, d 5
  1, d 5 1], [d 5 1, d 15 1, d 5 1], [d 15 1, d 15 1, d 5 1], [d 25 1, d 15 1, d 5 1], [d 35 1, d 15 1, d 5 1],
  [d 5 1, d 25 1, d 5 1], [d 15 1, d 25 1, d 5 1], [d 25 1, d 25 1, d 5 1], [d 35 1, d 25 1, d 5 1], [d 5 1, d
  35 1, d 5 1], [d 15 1, d 35 1, d 5 1], [d 25 1, d 35 1, d 5 1], [d 35 1, d 35 1, d 5 1], [d 5 1, d 5 1, d 15
  1], [d 15 1, d 5 1, d 15 1], [d 25 1, d 5 1, d 15 1], [d 35 1, d 5 1, d 15 1], [d 5 1, d 15 1, d 15 1], [d 15
  1, d 15 1, d 15 1], [d 25 1, d 15 1, d 15 1], [d 35 1, d 15 1, d 15 1], [d 5 1, d 25 1, d 15 1], [d 15 1, d 25
  1, d 15 1], [d 25 1, d 25 1, d 15 1], [d 35 1, d 25 1, d 15 1], [d 5 1, d 35 1, d 15 1], [d 15 1, d 35 1, d 15
  1], [d 25 1, d 35 1, d 15 1], [d 35 1, d 35 1, d 15 1], [d 5 1, d 5 1, d 25 1], [d 15 1, d 5 1, d 25 1], [d 25
  1, d 5 1, d 25 1], [d 35 1, d 5 1, d 25 1], [d 5 1, d 15 1, d 25 1], [d 15 1, d 15 1, d 25 1], [d 25 1, d 15
  1, d 25 1], [d 35 1, d 15 1, d 25 1], [d 5 1, d 25 1, d 25 1], [d 15 1, d 25 1, d 25 1], [d 25 1, d 25 1, d 25
  1], [d 35 1, d 25 1, d 25 1], [d 5 1, d 35 1, d 25 1], [d 15 1, d 35 1, d 25 1], [d 25 1, d 35 1, d 25 1], [d
  35 1, d 35 1, d 25 1], [d 5 1, d 5 1, d 35 1], [d 15 1, d 5 1, d 35 1], [d 25 1, d 5 1, d 35 1], [d 35 1, d 5
  1, d 35 1], [d 5 1, d 15 1, d 35 1], [d 15 1, d 15 1, d 35 1], [d 25 1, d 15 1, d 35 1], [d 35 1, d 15 1, d 35
  1], [d 5 1, d 25 1, d 35 1], [d 15 1, d 25 1, d 35 1], [d 25 1, d 25 1, d 35 1], [d 35 1, d 25 1, d 35 1], [d
  5 1, d 35 1, d 35 1], [d 15 1, d 35 1, d 35 1], [d 25 1, d 35 1, d 35 1], [d 35 1, d 35 1, d 35 1]]⟩

/-- `DualGEx_correction` (tests/DualGraphExamples.h:214-226) -/
def twoRows : Mesh :=
  ⟨[0, 2, 5, 8, 10, 12, 15, 18, 20], [1, 4, 0, 2, 5, 1, 3, 6, 2, 7, 0, 5, 1, 4, 6, 2, 5, 7, 3, 6], [d 1 0, d 1
  0, d 1 0, d 1 0, d 1 0, d 1 0, d 1 0, d 1 0, d 1 0, d 1 0, d 1 0, d 1 0, d 1 0, d 1 0, d 1 0, d 1 0, d 1 0, d
  1 0, d 1 0, d 1 0], [2, 1, 1, 2, 2, 1, 1, 2], [d 1 0, d 1 0, d 1 0, d 1 0, d 1 0, d 1 0, d 1 0, d 1 0], [[d 5
  1, d 5 1], [d 15 1, d 5 1], [d 25 1, d 5 1], [d 35 1, d 5 1], [d 5 1, d 15 1], [d 15 1, d 15 1], [d 25 1, d 15
  1], [d 35 1, d 15 1]]⟩

/-- `DualGEx_hole_w_corners` (tests/DualGraphExamples.h:231-244) -/
def holeCorners : Mesh :=
  ⟨[0, 3, 6, 9, 12, 16, 20, 24, 28, 31, 34, 37, 40, 42, 44], [4, 12, 13, 2, 5, 13, 1, 3, 6, 2, 7, 12, 0, 7, 5,
  8, 1, 4, 6, 9, 2, 5, 7, 10, 3, 4, 6, 11, 4, 11, 9, 5, 8, 10, 6, 9, 11, 7, 8, 10, 0, 3, 0, 1], [d 6 0, d 1 0, d
  1 0, sqrt2, d 6 0, d 1 0, sqrt2, sqrt2, d 6 0, sqrt2, d 6 0, d 1 0, d 6 0, sqrt2, sqrt2, d 4 0, d 6 0, sqrt2,
  sqrt2, d 4 0, d 6 0, sqrt2, sqrt2, d 4 0, d 6 0, sqrt2, sqrt2, d 4 0, d 4 0, sqrt2, sqrt2, d 4 0, sqrt2,
  sqrt2, d 4 0, sqrt2, sqrt2, d 4 0, sqrt2, sqrt2, d 1 0, d 1 0, d 1 0, d 1 0], [1, 1, 1, 1, 0, 0, 0, 0, 1, 1,
  1, 1, 2, 2], [d 6 0, d 65 1, d 7 0, d 65 1, d 5 0, d 5 0, d 5 0, d 5 0, d 3 0, d 3 0, d 3 0, d 3 0, d 1 0, d 1
  0], [[d 35 1, d 0 0], [d (-25) 2, d 35 1], [d (-35) 1, d 0 0], [d (-25) 2, d (-35) 1], [d 25 1, d 0 0], [d 0
  0, d 25 1], [d (-25) 1, d 0 0], [d 0 0, d (-25) 1], [d 15 1, d 0 0], [d 0 0, d 15 1], [d (-15) 1, d 0 0], [d 0
  0, d (-15) 1], [d 35 1, d (-35) 1], [d 35 1, d 35 1]]⟩

/-- `DualGEx_hole_no_corners` (tests/DualGraphExamples.h:247-260) -/
def hole : Mesh :=
  ⟨[0, 3, 6, 9, 12, 16, 20, 24, 28, 31, 34, 37, 40], [3, 1, 4, 0, 2, 5, 1, 3, 6, 0, 2, 7, 0, 7, 5, 8, 1, 4, 6,
  9, 2, 5, 7, 10, 3, 4, 6, 11, 4, 11, 9, 5, 8, 10, 6, 9, 11, 7, 8, 10], [sqrt2, sqrt2, d 6 0, sqrt2, sqrt2, d 6
  0, sqrt2, sqrt2, d 6 0, sqrt2, sqrt2, d 6 0, d 6 0, sqrt2, sqrt2, d 4 0, d 6 0, sqrt2, sqrt2, d 4 0, d 6 0,
  sqrt2, sqrt2, d 4 0, d 6 0, sqrt2, sqrt2, d 4 0, d 4 0, sqrt2, sqrt2, d 4 0, sqrt2, sqrt2, d 4 0, sqrt2,
  sqrt2, d 4 0, sqrt2, sqrt2], [1, 1, 1, 1, 0, 0, 0, 0, 1, 1, 1, 1], [d 7 0, d 7 0, d 7 0, d 7 0, d 5 0, d 5 0,
  d 5 0, d 5 0, d 3 0, d 3 0, d 3 0, d 3 0], [[d 35 1, d 0 0], [d 0 0, d 35 1], [d (-35) 1, d 0 0], [d 0 0, d
  (-35) 1], [d 25 1, d 0 0], [d 0 0, d 25 1], [d (-25) 1, d 0 0], [d 0 0, d (-25) 1], [d 15 1, d 0 0], [d 0 0, d
  15 1], [d (-15) 1, d 0 0], [d 0 0, d (-15) 1]]⟩

/-- `DualGEx_T_shaped` (tests/DualGraphExamples.h:263-275) -/
def tShaped : Mesh :=
  ⟨[0, 2, 5, 7, 9, 12, 14], [1, 3, 0, 2, 4, 1, 5, 0, 4, 1, 3, 5, 2, 4], [d 175 2, d 1 0, d 175 2, d 175 2, d 1
  0, d 175 2, d 1 0, d 1 0, d 175 2, d 1 0, d 175 2, d 175 2, d 1 0, d 175 2], [2, 1, 2, 2, 1, 2], [d 175 2, d
  175 2, d 175 2, d 175 2, d 175 2, d 175 2], [[d 5 1, d 875 3], [d 15 1, d 875 3], [d 25 1, d 875 3], [d 5 1, d
  2625 3], [d 15 1, d 2625 3], [d 25 1, d 2625 3]]⟩

/-- `DualGEx_Tria_BL` (tests/DualGraphExamples.h:292-322) -/
def triangles : Mesh :=
  ⟨[0, 2, 4, 5, 8, 11, 12, 14, 16], [1, 3, 0, 4, 3, 0, 2, 6, 1, 5, 7, 4, 3, 7, 4, 6], [sqrt101, d 1 0, sqrt101,
  d 10 0, sqrt101, d 1 0, sqrt101, d 10 0, d 10 0, sqrt101, d 1 0, sqrt101, d 10 0, sqrt101, d 1 0, sqrt101],
  [1, 1, 2, 0, 0, 2, 1, 1], [d 5 0, d 5 0, d 5 0, d 5 0, d 5 0, d 5 0, d 5 0, d 5 0], [[(Dbl.neg tenThirds),
  (Dbl.neg (Dbl.mul (d 2 0) third))], [(Dbl.neg (Dbl.mul (d 2 0) tenThirds)), (Dbl.neg third)], [(Dbl.mul (d 2
  0) tenThirds), (Dbl.neg (Dbl.mul (d 2 0) third))], [tenThirds, (Dbl.neg third)], [(Dbl.neg tenThirds), third],
  [(Dbl.neg (Dbl.mul (d 2 0) tenThirds)), (Dbl.mul (d 2 0) third)], [(Dbl.mul (d 2 0) tenThirds), third],
  [tenThirds, (Dbl.mul (d 2 0) third)]]⟩

/-- number of cells -/
def Mesh.n (m : Mesh) : Nat := m.bnd.length

/-- the priorities of the tests: first cells first (tests/DualGraphExamples.h:29-80) -/
def Mesh.prio (m : Mesh) : List Dbl := (List.range m.n).map (fun i => Num.ofNat (m.n - i))

/-- arguments of a call on a mesh of the tests, with the default values of the source and the values
most tests take (include/CoMMA/CoMMA.h:137-176, tests/test_defs.h:22-44) -/
def Mesh.args (m : Mesh) : Args Dbl where
  rowPtr := m.row
  colInd := m.col
  values := m.area
  volumes := m.vol
  centers := m.cen
  prio := m.prio
  compliant := List.range m.n
  nBnd := m.bnd
  buildLines := true
  isAniso := false
  oddLine := true
  thr := d 4 0
  order := .boundary
  correction := false
  dim := (m.cen.headD []).length
  goalCard := 4
  minCard := 4
  maxCard := 4
  aspect := .diamOverRadius
  singThresh := 1
  maxCells := none
  coupling := .maxWeight
  forceDir := true
  fcIter := 1
  nbh := .extended

/-- a platform with 32-bit `int` and 64-bit indices -/
def platform : Platform := ⟨2 ^ 31 - 1, 2 ^ 64 - 1, Hash.id⟩

/-- a call of `agglomerate_one_level`, with the output arguments as the caller leaves them: nothing if
it throws -/
def run (a : Args Dbl) (o : Outs := ⟨[], [], []⟩) : Option (List Nat) :=
  match agglomerateOneLevel platform a o with
  | (r, .ok _) => some r.fcToCc
  | (_, .error _) => none

/-- value of a computation that does not fail -/
def val {α : Type} (m : M α) : Option α :=
  match m with
  | .ok x => some x
  | .error _ => none

end CoMMA.Tests
