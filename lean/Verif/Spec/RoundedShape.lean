import Verif.Spec.RoundedFeatures
import Verif.Spec.Shape
/-! # Growth by aspect ratios that are known up to rounding -/

namespace CoMMA

variable {W F : Type} [Num W]

/-- Rounded arithmetic does not overflow as long as the exact results are at most `L`. -/
structure NoOverflow (W : Type) [Num W] (v : W → ℚ) (Fin : W → Prop) (u L : ℚ) : Prop where
  add : ∀ a b : W, Fin a → Fin b → |v a + v b| ≤ L → Fin (Num.add a b)
  sub : ∀ a b : W, Fin a → Fin b → |v a - v b| ≤ L → Fin (Num.sub a b)
  mul : ∀ a b : W, Fin a → Fin b → |v a * v b| ≤ L → Fin (Num.mul a b)
  div : ∀ a b : W, Fin a → Fin b → v b ≠ 0 → |v a / v b| ≤ L → Fin (Num.div a b)
  reduce : ∀ l : List W, (∀ a ∈ l, Fin a) → (1 + u) ^ l.length * (l.map (fun a => |v a|)).sum ≤ L → Fin (Num.reduce l)

/-- merit of cell `c` for a coarse cell `cc`, see `TrueMerit`; `R s r` tells that `r` may be taken for the aspect ratio of
the set `s` -/
structure MeritBy (g : Graph W) (R : NSet → W → Prop) (d : NMap Nat) (cc : NSet) (c : Nat) (m : Merit W) : Prop where
  faces : m.faces = nbShared (rowOf g.rowPtr g.colInd c) cc
  order : d.find? c = some m.order
  ratio : R (cc.insert c) m.ar

/-- merit of cell `c` for the coarse cell made of `xs` when `k` further cells are looked at, see
`LookAhead` -/
def LookBy (E : IsoEnv W F) (R : NSet → W → Prop) (d : NMap Nat) : Nat → List Nat → Nat → Merit W → Unit → Prop
  | 0, xs, c, m, _ => MeritBy E.g R d (NSet.ofList xs) c m
  | k + 1, xs, c, m, _ => ∃ m0 l, MeritBy E.g R d (NSet.ofList xs) c m0 ∧
      Candidates E.g E.nbh E.pool.prio d.keySet (xs ++ [c]) l ∧
      ((l = [] ∧ m = m0) ∨
        ∃ c2 m2, FirstBest (LookBy E R d k (xs ++ [c])) l c2 m2 () ∧
          m = m0.ahead (nbShared (rowOf E.g.rowPtr E.g.colInd c2) (NSet.ofList (xs ++ [c]))))

/-- a coarse cell grown one cell after the other, always adding the first best candidate, see
`GreedySeq` -/
inductive SeqBy (E : IsoEnv W F) (R : NSet → W → Prop) (d : NMap Nat) (hi : Nat) : List Nat → Prop where
  | seed {s : Nat} : SeqBy E R d hi [s]
  | next {xs l : List Nat} {c : Nat} {m : Merit W} : SeqBy E R d hi xs →
      Candidates E.g E.nbh E.pool.prio d.keySet xs l →
      FirstBest (LookBy E R d (min (hi - xs.length) E.fcIter - 1) xs) l c m () →
      SeqBy E R d hi (xs ++ [c])

/-- neither too small nor too large for the products and quotients of the aspect ratios -/
def InRange (x : ℚ) : Prop := (2 : ℚ) ^ (-200 : Int) ≤ x ∧ x ≤ (2 : ℚ) ^ (200 : Int)

/-- The total volume of the set `s` and the other exact numbers which a kind of aspect ratio uses are in range.  For sets of two
cells or more. -/
structure ModerateSet (g : Graph ℚ) (kind : ARKind) (s : NSet) : Prop where
  measure : InRange (measureOf g s)
  internal : kind = .overInternal → InRange (internalWeight g s)
  external : kind.weights = true → InRange (externalWeight g s + 4 * internalWeight g s)
  diam : kind.geom = true → ∀ m, LargestFrom Num.lmin (PairDist g s) m → InRange m
  edge : kind = .diamOverMinEdge → s.card ≠ 2 → ∀ m, SmallestFrom Num.lmax (PairDist g s) m → InRange m

/-- What the error of an aspect ratio is relative to: itself, but the external weight, a difference, counts with four times the
internal weight. -/
def ratioSize (g : Graph ℚ) (kind : ARKind) (s : NSet) (q : ℚ) : ℚ :=
  match kind with
  | .external => externalWeight g s + 4 * internalWeight g s
  | .algebraic => (externalWeight g s + 4 * internalWeight g s) / measureOf g s
  | .perimOverRadius =>
    if g.dim = 2 then (externalWeight g s + 4 * internalWeight g s) * (externalWeight g s + 4 * internalWeight g s) / measureOf g s
    else (externalWeight g s + 4 * internalWeight g s) * (externalWeight g s + 4 * internalWeight g s) *
      (externalWeight g s + 4 * internalWeight g s) / (measureOf g s * measureOf g s)
  | _ => q

/-- `r` is near to the exact aspect ratio of the set `s` -/
def RatioNear (g : Graph W) (v : W → ℚ) (u η : ℚ) (D d : Nat) (kind : ARKind) (s : NSet) (r : W) : Prop :=
  ModerateSet (g.exact v) kind s → ∃ q, RatioOf (g.exact v) kind s q ∧
    Near u (20 * (D + s.card + d + 1)) η (v r) q (ratioSize (g.exact v) kind s q)

end CoMMA
