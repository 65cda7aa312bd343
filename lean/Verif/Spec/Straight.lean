import Verif.Spec.LineGrowth
/-! # Lines that do not bend -/

namespace CoMMA

variable {W : Type} [Num W]

/-- every three consecutive cells of the list are related -/
def Triples (R : Nat → Nat → Nat → Prop) (l : List Nat) : Prop :=
  ∀ (k u v w : Nat), l[k]? = some u → l[k + 1]? = some v → l[k + 2]? = some w → R u v w

/-- going on from `v` to `w` continues the step from `u` to `v` -/
def GoesOn (g : Graph W) (u v w : Nat) : Prop := ∃ d, StepDir g u v d ∧ ∃ c, Ahead g d v w c

/-- going from `v` to `u` is opposite to the step from `v` to `w` -/
def GoesBack (g : Graph W) (u v w : Nat) : Prop := ∃ d, StepDir g v w d ∧ ∃ c, Ahead g (d.map Num.neg) v u c

/-- one of the three is what the library has found before putting the cells on a line -/
def StraightOn (g : Graph W) (u v w : Nat) : Prop := GoesOn g u v w ∨ GoesOn g w v u ∨ GoesBack g u v w

end CoMMA
