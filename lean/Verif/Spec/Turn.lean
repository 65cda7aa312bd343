import Verif.Spec.LineGrowth
import Verif.Model.CoarseGraph
/-! # Specification: turning space

A change of the orientation of the axes, as a map of points: a rotation about the origin, a
reflection, an exchange of axes.  It respects the vector operations and the scalar product. -/

namespace CoMMA

variable {W : Type} [Num W]

/-- `φ` turns (or reflects) the points with `D` coordinates: it respects the zero vector, sums,
differences, opposites and multiples of vectors, and the scalar product of any two vectors -/
structure TurnsSpace (D : Nat) (φ : List W → List W) : Prop where
  length : ∀ c, c.length = D → (φ c).length = D
  zero : φ (List.replicate D (Num.ofNat 0)) = List.replicate D (Num.ofNat 0)
  add : ∀ c d, c.length = D → d.length = D → φ (List.zipWith Num.add c d) = List.zipWith Num.add (φ c) (φ d)
  sub : ∀ c d, c.length = D → d.length = D → φ (List.zipWith Num.sub c d) = List.zipWith Num.sub (φ c) (φ d)
  neg : ∀ c, c.length = D → φ (c.map Num.neg) = (φ c).map Num.neg
  times : ∀ c k, c.length = D → φ (c.map (fun x => Num.mul k x)) = (φ c).map (fun x => Num.mul k x)
  timesRight : ∀ c k, c.length = D → φ (c.map (fun x => Num.mul x k)) = (φ c).map (fun x => Num.mul x k)
  scalar : ∀ c d, c.length = D → d.length = D → scalar (φ c) (φ d) = scalar c d

/-- every center turned -/
def Turned (D : Nat) (φ : List W → List W) (cs cs' : List (List W)) : Prop :=
  cs' = cs.map φ ∧ ∀ c ∈ cs, c.length = D

/-- the same mesh, every center turned -/
def MeshData.turned (φ : List W → List W) (g : MeshData W) : MeshData W := { g with centers := g.centers.map φ }

end CoMMA
