import Verif.Spec.LineGrowth
import Verif.Spec.SameData
/-! # Specification: change of units

A change of unit multiplies numbers by a positive constant `s`, and the quotients where they
are divisors by its inverse `t`.  The laws hold in exact arithmetic for every positive
constant, and in floating point for powers of two as long as nothing over- or underflows. -/

namespace CoMMA

variable {W : Type} [Num W]

/-- `s` multiplies by a positive constant, `t` by its inverse; `s` commutes with the operations -/
structure Rescales (s t : W → W) : Prop where
  add : ∀ x y, Num.add (s x) (s y) = s (Num.add x y)
  sub : ∀ x y, Num.sub (s x) (s y) = s (Num.sub x y)
  mulLeft : ∀ x y, Num.mul (s x) y = s (Num.mul x y)
  mulRight : ∀ x y, Num.mul x (s y) = s (Num.mul x y)
  divLeft : ∀ x y, Num.div (s x) y = s (Num.div x y)
  divRight : ∀ x y, Num.div x (s y) = t (Num.div x y)
  reduce : ∀ l : List W, Num.reduce (l.map s) = s (Num.reduce l)
  lt : ∀ x y, Num.lt (s x) (s y) = Num.lt x y
  zero : s (Num.ofNat 0) = Num.ofNat 0
  inv : ∀ x, s (t x) = x

/-- a change of unit and the way back -/
def UnitChange (s t : W → W) : Prop := Rescales s t ∧ Rescales t s

/-- the square root of an area in the other unit is a length in the other unit -/
def RootScales (r : W → W) : Prop := ∀ x, Num.sqrt (r (r x)) = r (Num.sqrt x)

/-- the squared distances of different cells lie between the smallest and the largest number
the library starts from -/
def DistancesInRange (centers : List (List W)) : Prop :=
  ∀ i j : Nat, ∀ ci cj, i ≠ j → centers[i]? = some ci → centers[j]? = some cj →
    Num.lt Num.lmin (dist2 ci cj) = true ∧ Num.lt (dist2 ci cj) Num.lmax = true

/-- no weight exceeds the largest number -/
def WeightsInRange (values : List W) : Prop := ∀ w ∈ values, Num.lt Num.lmax w = false

/-- the same call with weights, volumes and coordinates in other units -/
def Args.inUnits (a : Args W) (weight volume length : W → W) : Args W :=
  { a with
    values := a.values.map weight
    volumes := a.volumes.map volume
    centers := a.centers.map (fun c => c.map length) }

end CoMMA
