import Verif.Spec.Straight
import Verif.Spec.Graph
/-! # Meshes where strong couplings form chains -/

namespace CoMMA

variable {W : Type} [Num W]

/-- the coupling of `u` with `v` is strong, seen from `u` -/
def StrongTo (g : Graph W) (coupling : Coupling) (u v : Nat) : Prop := ∃ w, StrongCoupling g coupling u v w

/-- among the cells of `T` strong couplings are mutual, and no cell has more than two of them -/
structure FormChains (g : Graph W) (coupling : Coupling) (T : Nat → Prop) : Prop where
  back : ∀ u v, T u → T v → StrongTo g coupling u v → StrongTo g coupling v u
  two : ∀ u x y z, T u → T x → T y → T z → StrongTo g coupling u x → StrongTo g coupling u y → StrongTo g coupling u z →
    x = y ∨ y = z ∨ x = z

/-- the chains of strong couplings do not bend, and only they go straight on: after a step along a chain the neighbours
straight ahead are those strongly coupled, and so are the neighbours opposite to such a step -/
structure StraightChains (g : Graph W) (coupling : Coupling) (T : Nat → Prop) : Prop where
  on : ∀ u v w, T u → T v → T w → StrongTo g coupling u v → Adj g.rowPtr g.colInd v w → w ≠ u →
    (GoesOn g u v w ↔ StrongTo g coupling v w)
  back : ∀ u v w, T u → T v → T w → StrongTo g coupling v w → Adj g.rowPtr g.colInd v u → u ≠ w →
    (GoesBack g u v w ↔ StrongTo g coupling v u)

/-- `j` is reached from `i` through strong couplings of cells of `T` -/
def Chained (g : Graph W) (coupling : Coupling) (T : Nat → Prop) (i j : Nat) : Prop :=
  ∃ k, Walk (fun u v => T u ∧ T v ∧ StrongTo g coupling u v) k i j

end CoMMA
