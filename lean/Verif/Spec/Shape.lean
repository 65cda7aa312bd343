import Verif.Spec.Growth
import Verif.Spec.Features
/-! # Growth by the aspect ratio of the enlarged coarse cell

As in `Spec/Growth`, without the features kept by the algorithm: the aspect ratio is the one
of the set of cells. -/

namespace CoMMA

variable {W F : Type} [Num W]

/-- merit of cell `c` for a coarse cell `cc`: number of neighbours of `c` in `cc`, distance of
`c` from the seed, aspect ratio of `cc` with `c` -/
structure TrueMerit (g : Graph W) (kind : ARKind) (d : NMap Nat) (cc : NSet) (c : Nat) (m : Merit W) : Prop where
  faces : m.faces = nbShared (rowOf g.rowPtr g.colInd c) cc
  order : d.find? c = some m.order
  ratio : RatioOf g kind (cc.insert c) m.ar

/-- merit of cell `c` for the coarse cell made of `xs` when `k` further cells are looked at, see
`LookAhead` -/
def TrueLook (E : IsoEnv W F) (kind : ARKind) (d : NMap Nat) : Nat → List Nat → Nat → Merit W → Unit → Prop
  | 0, xs, c, m, _ => TrueMerit E.g kind d (NSet.ofList xs) c m
  | k + 1, xs, c, m, _ => ∃ m0 l, TrueMerit E.g kind d (NSet.ofList xs) c m0 ∧
      Candidates E.g E.nbh E.pool.prio d.keySet (xs ++ [c]) l ∧
      ((l = [] ∧ m = m0) ∨
        ∃ c2 m2, FirstBest (TrueLook E kind d k (xs ++ [c])) l c2 m2 () ∧
          m = m0.ahead (nbShared (rowOf E.g.rowPtr E.g.colInd c2) (NSet.ofList (xs ++ [c]))))

/-- a coarse cell grown one cell after the other, always adding the first best candidate, see
`GreedySeq` -/
inductive ShapedSeq (E : IsoEnv W F) (kind : ARKind) (d : NMap Nat) (hi : Nat) : List Nat → Prop where
  | seed {s : Nat} : ShapedSeq E kind d hi [s]
  | next {xs l : List Nat} {c : Nat} {m : Merit W} : ShapedSeq E kind d hi xs →
      Candidates E.g E.nbh E.pool.prio d.keySet xs l →
      FirstBest (TrueLook E kind d (min (hi - xs.length) E.fcIter - 1) xs) l c m () →
      ShapedSeq E kind d hi (xs ++ [c])

end CoMMA
