import Verif.Model.Growth
import Verif.Model.Container
/-! # Isotropic agglomeration loop (include/CoMMA/Agglomerator.h:1092-1137) -/

namespace CoMMA

variable {W F : Type} [Num W]

/-- one turn of the loop (include/CoMMA/Agglomerator.h:1104-1126) -/
def isoStep (E : IsoEnv W F) (c : Cont) (p : Pool) : M (Cont × Pool) := do
  let r ← p.choose E.pool c.agg
  assertM r.1.isSome
  let seed ← valueM r.1
  let o ← chooseOptimal E c.agg r.2 seed
  let k ← c.create o.1 o.2.1 false false
  pure (k.2, o.2.2)

/-- the while loop (include/CoMMA/Agglomerator.h:1103-1127) -/
def isoLoop (E : IsoEnv W F) : Nat → Cont → Pool → M (Cont × Pool)
  | fuel, c, p =>
    if c.nbAgg < E.g.nbC then
      match fuel with
      | 0 => .error .fuel
      | fuel + 1 => do
        let r ← isoStep E c p
        isoLoop E fuel r.1 r.2
    else pure (c, p)

/-- `Agglomerator_Isotropic::agglomerate_one_level` without the correction
(include/CoMMA/Agglomerator.h:1099-1131) -/
def isoRun (E : IsoEnv W F) (c : Cont) (p : Pool) : M (Cont × Pool) := do
  let r ← isoLoop E E.g.nbC c p
  let c ← r.1.createDelayed
  pure (c, r.2)

end CoMMA
