import Verif.Spec.Double
/-! # Features of coarse cells in rounded arithmetic

The exact features are those of `Spec/Features.lean` for the graph with the same numbers, taken as rational numbers. -/

namespace CoMMA

/-- rational numbers, with the limits of doubles; the square root is not used -/
instance exactNum : Num ℚ where
  lt a b := decide (a < b)
  le a b := decide (a ≤ b)
  eq a b := decide (a = b)
  neg a := -a
  abs a := |a|
  add a b := a + b
  sub a b := a - b
  mul a b := a * b
  div a b := a / b
  sqrt _ := 0
  reduce l := l.foldl (· + ·) 0
  ofNat n := n
  ofInt n := n
  lmin := (Num.lmin : Dbl).value
  lmax := (Num.lmax : Dbl).value
  c090 := 9 / 10
  cdev := (Num.cdev : Dbl).value
  ctol := (Num.ctol : Dbl).value

variable {W : Type} [Num W]

/-- the graph with the exact values of its numbers -/
def Graph.exact (v : W → ℚ) (g : Graph W) : Graph ℚ :=
  { nbC := g.nbC, rowPtr := g.rowPtr, colInd := g.colInd, values := g.values.map v, volumes := g.volumes.map v
    centers := g.centers.map (·.map v), nBnd := g.nBnd, dim := g.dim, compliant := g.compliant }

/-- Rounded arithmetic: the error of each operation is at most `u` times the exact result, and for products and quotients
another `η` if the result is too small; doubling and counts up to `N` are exact; the order is that of the values; squares and
sums of numbers that are not negative are not negative; a number between zero and a finite number is finite. -/
structure RoundedArith (W : Type) [Num W] (v : W → ℚ) (Fin : W → Prop) (u η : ℚ) (N : Nat) : Prop extends RoundedAdd W v Fin u where
  small : 0 ≤ η
  lt : ∀ a b : W, Num.lt a b = decide (v a < v b)
  sub : ∀ a b : W, Fin (Num.sub a b) → Fin a ∧ Fin b ∧ |v (Num.sub a b) - (v a - v b)| ≤ u * |v a - v b|
  two : ∀ a : W, Fin (Num.mul (Num.ofNat 2) a) → Fin a ∧ v (Num.mul (Num.ofNat 2) a) = 2 * v a
  count : ∀ n : Nat, n ≤ N → Fin (Num.ofNat n : W) ∧ v (Num.ofNat n : W) = n
  mul : ∀ a b : W, v a ≠ 0 ∨ Fin b → Fin a → Fin (Num.mul a b) → Fin b ∧ |v (Num.mul a b) - v a * v b| ≤ u * |v a * v b| + η
  div : ∀ a b : W, Fin b → v b ≠ 0 → Fin (Num.div a b) → Fin a ∧ |v (Num.div a b) - v a / v b| ≤ u * |v a / v b| + η
  reduce : ∀ l : List W, Fin (Num.reduce l) → (∀ a ∈ l, Fin a) ∧
    |v (Num.reduce l) - (l.map v).sum| ≤ ((1 + u) ^ l.length - 1) * (l.map (fun a => |v a|)).sum
  bound : ∀ a b : W, Fin b → 0 ≤ v a → v a ≤ v b → Fin a
  square : ∀ a : W, 0 ≤ v (Num.mul a a) ∧ (Fin (Num.mul a a) → Fin a)
  grow : ∀ a b : W, 0 ≤ v a → 0 ≤ v b → 0 ≤ v (Num.add a b)
  limits : Fin (Num.lmax : W) ∧ v Num.lmin = Num.lmin ∧ v Num.lmax = Num.lmax

/-- `x` is `A` up to `p` roundings of numbers of size `S`, and up to `e` rounded as often -/
def Near (u : ℚ) (p : Nat) (e x A S : ℚ) : Prop := |x - A| ≤ ((1 + u) ^ p - 1) * S + (1 + u) ^ p * e

/-- sum of the sizes of the terms of a moment -/
def momentSize (g : Graph ℚ) (s : NSet) (j : Nat) : ℚ :=
  sumOver s.elems (fun i => |volumeAt g i * ((centerAt g i)[j]?).getD 0|)

/-- The features of a set of cells up to rounding.  The exact values are those of the graph with the same numbers, taken as
rational numbers.  Each number is near to the exact one if it did not overflow; distances are, if the largest one did not.  The number of
internal faces is exact.  `D` is the largest number of neighbours of a cell. -/
structure FeatsNear (g : Graph W) (v : W → ℚ) (Fin : W → Prop) (u η : ℚ) (D : Nat) (kind : ARKind) (s : NSet) (f : Feats W) : Prop where
  measure : Fin f.measure → Near u (s.card - 1) 0 (v f.measure) (measureOf (g.exact v) s) (measureOf (g.exact v) s)
  nInt : f.nInt = internalPairs g s
  int : kind.weights = true → Fin f.int →
    Near u (D + s.card) 0 (v f.int) (internalWeight (g.exact v) s) (internalWeight (g.exact v) s)
  ext : kind.weights = true → Fin f.ext → Near u (D + 2 * s.card + 1) (2 * s.card * η) (v f.ext) (externalWeight (g.exact v) s)
    (externalWeight (g.exact v) s + 4 * internalWeight (g.exact v) s)
  diam : kind.geom = true → Fin f.sqDiam → ∀ d, (∀ c ∈ g.centers, c.length = d) →
    ∃ m, LargestFrom Num.lmin (PairDist (g.exact v) s) m ∧ Near u (d + 3) (d * η) (v f.sqDiam) m m
  edge : kind.geom = true → Fin f.sqDiam → ∀ d, (∀ c ∈ g.centers, c.length = d) →
    ∃ m, SmallestFrom Num.lmax (PairDist (g.exact v) s) m ∧ Near u (d + 3) (d * η) (v f.sqMin) m m
  moments : kind.bary = true → (∀ i ∈ s, f.sum.length = (centerAt g i).length) ∧
    ∀ j x, f.sum[j]? = some x → Fin x →
      Near u (s.card + 1) (s.card * η) (v x) (momentOf (g.exact v) s j) (momentSize (g.exact v) s j)

/-- What is assumed of the graph: finite volumes and centers, symmetric, no cell its own neighbour, the same weight on both sides of each face, no negative
weight or volume, at most `D ≤ N` neighbours, cells with boundary faces have a neighbour (otherwise the estimate of
the boundary weight is 0/0). -/
structure RoundedInput (g : Graph W) (v : W → ℚ) (Fin : W → Prop) (N D : Nat) : Prop where
  crs : ValidCRS g.nbC g.rowPtr g.colInd
  sizes : MeshSizes g
  sym : SymmetricCRS g.rowPtr g.colInd
  loop : NoSelfLoop g.rowPtr g.colInd
  symW : SymWeights (g.exact v)
  finite : (∀ x ∈ g.volumes, Fin x) ∧ ∀ c ∈ g.centers, ∀ x ∈ c, Fin x
  weights : ∀ w ∈ g.values, 0 ≤ v w
  volumes : ∀ x ∈ g.volumes, 0 ≤ v x
  rows : ∀ i < g.nbC, (rowOf g.rowPtr g.colInd i).length ≤ D
  limit : D ≤ N
  bnd : ∀ b ∈ g.nBnd, b ≤ N
  alone : ∀ i < g.nbC, (g.nBnd[i]?).getD 0 ≠ 0 → rowOf g.rowPtr g.colInd i ≠ []

end CoMMA
