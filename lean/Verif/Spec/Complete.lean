import Verif.Spec.Shape
import Verif.Spec.PoolSteps
/-! # Complete description of the result of an isotropic call -/

namespace CoMMA

variable {W F : Type} [Num W]

/-- `f` numbers the coarse cells `cs`: cell `i` is in the `k`-th of them -/
def Numbers (n : Nat) (cs : List NSet) (f : List Nat) : Prop :=
  f.length = n ∧ ∀ i k : Nat, f[i]? = some k ↔ ∃ c, cs[k]? = some c ∧ i ∈ c

/-- The map `f` from cells to coarse cells is the one of an isotropic agglomeration of `n` cells:
starting with a new pool, coarse cells are made one after the other from the seeds given by the
pool, until no cell is left; each is grown by adding always the first best candidate. -/
def IsotropicMap (E : IsoEnv W F) (Grown : NMap Nat → Nat → List Nat → Prop) (n : Nat) (f : List Nat) : Prop :=
  ∃ p0 cs agg p, PoolStarted E.pool p0 ∧ IsoTrace E Grown (List.replicate n false) p0 cs agg p ∧
    agg = List.replicate n true ∧ Numbers n (cs.map Prod.snd) f

/-- The description of the result of an isotropic call without correction on a mesh of `n`
cells; candidates with as many common faces and at the same distance are compared by the aspect ratio of
the enlarged coarse cell. -/
def IsotropicResult (P : Platform) (a : Args W) (n : Nat) (f : List Nat) : Prop :=
  ∃ E, CallEnv P a E ∧ IsotropicMap E (ShapedSeq E a.aspect) n f

/-- The same, with the aspect ratio updated cell after cell as the code does it. -/
def GreedyResult (P : Platform) (a : Args W) (n : Nat) (f : List Nat) : Prop :=
  ∃ E, CallEnv P a E ∧ IsotropicMap E (GrownGreedily E) n f

end CoMMA
