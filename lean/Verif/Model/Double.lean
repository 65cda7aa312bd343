import Verif.Model.Core
/-!
# IEEE 754 doubles

The instance of the abstract numbers that `CoMMAWeightT` stands for: `double`
(config_files/CoMMAConfig.h.in:36, CMakeLists.txt:61).  A double is kept as the integer made of its bits, counted
negatively when the sign bit is set; that is the order of the values.  Every operation is computed
exactly and rounded to nearest, ties to even, with gradual underflow and overflow to infinity.

Two things are left out: the two zeros are one value, and there is no NaN (the operations which
would give one give zero or an infinity).
-/

namespace CoMMA

/-- a double (config_files/CoMMAConfig.h.in:36): its bits as an integer, with the sign -/
structure Dbl where
  code : Int
  deriving DecidableEq, Repr

namespace Dbl

/-- code of the infinities (format of `CoMMAWeightT`,
config_files/CoMMAConfig.h.in:36) -/
def infC : Nat := 2047 * 2 ^ 52

/-- a value of given sign and code (format of `CoMMAWeightT`,
config_files/CoMMAConfig.h.in:36) -/
def signed (neg : Bool) (c : Nat) : Dbl := ⟨if neg then -(c : Int) else (c : Int)⟩

/-- significand of a code (format of `CoMMAWeightT`,
config_files/CoMMAConfig.h.in:36) -/
def mant (c : Nat) : Nat := if c / 2 ^ 52 = 0 then c else 2 ^ 52 + c % 2 ^ 52

/-- exponent of a code: the value is `mant c * 2 ^ expo c` (format of `CoMMAWeightT`,
config_files/CoMMAConfig.h.in:36) -/
def expo (c : Nat) : Int := if c / 2 ^ 52 = 0 then -1074 else (c / 2 ^ 52 : Nat) - 1075

/-- `n / d`, rounded to nearest with ties to even (format of `CoMMAWeightT`,
config_files/CoMMAConfig.h.in:36) -/
def nearest (n d : Nat) : Nat :=
  if d < 2 * (n % d) ∨ (2 * (n % d) = d ∧ n / d % 2 = 1) then n / d + 1 else n / d

/-- code of `n / d`, where the unit of the last place is `2 ^ e` (format of `CoMMAWeightT`,
config_files/CoMMAConfig.h.in:36) -/
def encode (n d : Nat) (e : Int) : Nat :=
  min infC (((e + 1074) * 2 ^ 52).toNat + nearest n d)

/-- code of `n / d * 2 ^ e` when the unit in the last place should be `2 ^ u` or twice that (format of `CoMMAWeightT`,
config_files/CoMMAConfig.h.in:36) -/
def roundAt (n d : Nat) (e u : Int) : Nat :=
  if n * 2 ^ (e - u).toNat < 2 ^ 53 * (d * 2 ^ (u - e).toNat) then
    encode (n * 2 ^ (e - u).toNat) (d * 2 ^ (u - e).toNat) u
  else encode (n * 2 ^ (e - u).toNat) (2 * (d * 2 ^ (u - e).toNat)) (u + 1)

/-- code of the double nearest to `n / d * 2 ^ e` (format of `CoMMAWeightT`,
config_files/CoMMAConfig.h.in:36) -/
def round (n d : Nat) (e : Int) : Nat :=
  if n = 0 then 0 else roundAt n d e (max (-1074) ((Nat.log2 n : Int) - Nat.log2 d - 53 + e))

/-- the double nearest to `n / d * 2 ^ e` (format of `CoMMAWeightT`,
config_files/CoMMAConfig.h.in:36) -/
def roundInt (n : Int) (d : Nat) (e : Int) : Dbl := signed (decide (n < 0)) (round n.natAbs d e)

/-- decimal literals: `n / 10 ^ k` (include/CoMMA/Agglomerator.h:744) -/
def dec (n : Int) (k : Nat) : Dbl := roundInt n (10 ^ k) 0

/-- the significand with the sign of the value (format of `CoMMAWeightT`,
config_files/CoMMAConfig.h.in:36) -/
def sig (a : Dbl) : Int := if a.code < 0 then -(mant a.code.natAbs : Int) else mant a.code.natAbs

/-- whether a value is infinite (format of `CoMMAWeightT`,
config_files/CoMMAConfig.h.in:36) -/
def isInf (a : Dbl) : Bool := decide (infC ≤ a.code.natAbs)

/-- `+` of doubles (as used in include/CoMMA/ARComputer.h:298-345, include/CoMMA/Util.h:424-511) -/
def add (a b : Dbl) : Dbl :=
  if a.isInf then a
  else if b.isInf then b
  else roundInt
    (a.sig * 2 ^ (expo a.code.natAbs - min (expo a.code.natAbs) (expo b.code.natAbs)).toNat
      + b.sig * 2 ^ (expo b.code.natAbs - min (expo a.code.natAbs) (expo b.code.natAbs)).toNat)
    1 (min (expo a.code.natAbs) (expo b.code.natAbs))

/-- change of sign (include/CoMMA/Agglomerator.h:690, 710) -/
def neg (a : Dbl) : Dbl := ⟨-a.code⟩

/-- whether a product or a quotient is negative (format of `CoMMAWeightT`,
config_files/CoMMAConfig.h.in:36) -/
def negative (a b : Dbl) : Bool := decide (a.code < 0) != decide (b.code < 0)

/-- `*` of doubles (include/CoMMA/Agglomerator.h:744); zero times infinity, a NaN, is taken to be zero -/
def mul (a b : Dbl) : Dbl :=
  if a.code = 0 ∨ b.code = 0 then ⟨0⟩
  else if a.isInf || b.isInf then signed (negative a b) infC
  else signed (negative a b)
    (round (mant a.code.natAbs * mant b.code.natAbs) 1 (expo a.code.natAbs + expo b.code.natAbs))

/-- `/` of doubles (include/CoMMA/Dual_Graph.h:603); 0/0 and infinity over infinity, NaNs, are taken to be zero and infinity -/
def div (a b : Dbl) : Dbl :=
  if a.code = 0 then ⟨0⟩
  else if b.code = 0 || a.isInf then signed (negative a b) infC
  else if b.isInf then ⟨0⟩
  else signed (negative a b)
    (round (mant a.code.natAbs) (mant b.code.natAbs) (expo a.code.natAbs - expo b.code.natAbs))

/-- integer square root, bit after bit (for `sqrt`, include/CoMMA/Dual_Graph.h:603) -/
def isqrt (n : Nat) : Nat → Nat → Nat
  | 0, r => r
  | k + 1, r => isqrt n k (if (r + 2 ^ k) * (r + 2 ^ k) ≤ n then r + 2 ^ k else r)

/-- square root of `n * 2 ^ e`, `e` even: the integer square root of enough bits and one more bit
telling whether it is exact (for `sqrt`, include/CoMMA/Dual_Graph.h:603) -/
def sqrtAt (n : Nat) (e : Int) : Nat :=
  let r := isqrt (n * 2 ^ 112) 84 0
  round (2 * r + (if r * r = n * 2 ^ 112 then 0 else 1)) 1 (e / 2 - 57)

/-- `std::sqrt` (include/CoMMA/Util.h:137, include/CoMMA/Dual_Graph.h:603); zero for negative arguments -/
def sqrt (a : Dbl) : Dbl :=
  if a.code ≤ 0 then ⟨0⟩
  else if a.isInf then a
  else if expo a.code.natAbs % 2 = 0 then signed false (sqrtAt (mant a.code.natAbs) (expo a.code.natAbs))
  else signed false (sqrtAt (2 * mant a.code.natAbs) (expo a.code.natAbs - 1))

/-- `std::reduce` (include/CoMMA/Dual_Graph.h:672, 695) as written in libstdc++: by groups of four -/
def reduceFrom : Dbl → List Dbl → Dbl
  | s, a :: b :: c :: d :: r => reduceFrom (add s (add (add a b) (add c d))) r
  | s, r => r.foldl add s

end Dbl

/-- doubles (config_files/CoMMAConfig.h.in:36) with the constants of include/CoMMA/Agglomerator.h:744 and include/CoMMA/Util.h:93-96 -/
instance dblNum : Num Dbl where
  lt a b := decide (a.code < b.code)
  le a b := decide (a.code ≤ b.code)
  eq a b := decide (a.code = b.code)
  neg := Dbl.neg
  abs a := ⟨a.code.natAbs⟩
  add := Dbl.add
  sub a b := Dbl.add a (Dbl.neg b)
  mul := Dbl.mul
  div := Dbl.div
  sqrt := Dbl.sqrt
  reduce := Dbl.reduceFrom ⟨0⟩
  ofNat n := Dbl.roundInt n 1 0
  ofInt n := Dbl.roundInt n 1 0
  lmin := ⟨2 ^ 52⟩
  lmax := ⟨Dbl.infC - 1⟩
  c090 := Dbl.dec 90 2
  cdev := Dbl.dec 9396926207859084 16
  ctol := Dbl.dec 1 12

end CoMMA
