/-!
# Outcomes, vectors and numbers

Shared vocabulary of the model: the outcome monad, C++ vector accesses and the
abstract floating-point type.
-/

namespace CoMMA

/-- Ways in which a modelled C++ call can fail to return normally (for instance `assert` at
include/CoMMA/Agglomerator.h:1108, `throw` at include/CoMMA/CoMMA.h:199, `at` at include/CoMMA/Agglomerator.h:1459,
`value` at include/CoMMA/CoMMA.h:442, `operator[]` at include/CoMMA/Dual_Graph.h:185). -/
inductive Err where
  /-- undefined behaviour: out-of-range `operator[]`, dereference past the end,
  `front()` of an empty container, null pointer -/
  | ub
  /-- a failing `assert` (debug builds) -/
  | assertion
  /-- `throw std::invalid_argument` -/
  | invalidArgument
  /-- `throw std::range_error` -/
  | rangeError
  /-- `std::out_of_range` thrown by `.at` -/
  | outOfRange
  /-- `std::bad_optional_access` thrown by `.value()` -/
  | badOptional
  /-- the loop did not stop within the fuel given to the model -/
  | fuel
  deriving DecidableEq, Repr

/-- Outcome of a modelled call: how every function under include/CoMMA ends; models no lines of its own. -/
abbrev M (α : Type) := Except Err α

/-- `Ok m P`: the call returns normally and its result satisfies `P`
(total correctness).  Used in statements; models no code. -/
def Ok {α : Type} (m : M α) (P : α → Prop) : Prop :=
  match m with
  | .ok a => P a
  | .error _ => False

/-- `v[i]` on a `std::vector`/`std::deque` (unchecked: out of range is UB), as at
include/CoMMA/Dual_Graph.h:168-169 or include/CoMMA/Seeds_Pool.h:367-368. -/
def rd {α : Type} (v : List α) (i : Nat) : M α :=
  match v[i]? with
  | some a => .ok a
  | none => .error .ub

/-- `v[i] = a` (unchecked), as at include/CoMMA/Dual_Graph.h:108, 760, 781. -/
def wr {α : Type} (v : List α) (i : Nat) (a : α) : M (List α) :=
  if i < v.length then .ok (v.set i a) else .error .ub

/-- `assert(b)`, as at include/CoMMA/Agglomerator.h:1108, 1232, 1469. -/
def assertM (b : Bool) : M Unit := if b then .ok () else .error .assertion

/-- `opt.value()`, as at include/CoMMA/Agglomerator.h:333, 1114 and include/CoMMA/CoMMA.h:442. -/
def valueM {α : Type} (o : Option α) : M α :=
  match o with
  | some a => .ok a
  | none => .error .badOptional

/-- Abstract floating-point type `CoMMAWeightType` (config_files/CoMMAConfig.h.in:36): uninterpreted operations and
constants, no laws.  IEEE doubles (with NaN) are one instance, exact rationals
another. -/
class Num (W : Type) where
  lt : W → W → Bool
  le : W → W → Bool
  eq : W → W → Bool
  neg : W → W
  abs : W → W
  add : W → W → W
  sub : W → W → W
  mul : W → W → W
  div : W → W → W
  sqrt : W → W
  /-- `std::reduce` from zero: the standard leaves order and grouping of the sum open, so this is
  an operation of its own -/
  reduce : List W → W
  /-- conversion of an integer count -/
  ofNat : Nat → W
  ofInt : Int → W
  /-- `std::numeric_limits<W>::min()` (smallest positive normal value) -/
  lmin : W
  /-- `std::numeric_limits<W>::max()` -/
  lmax : W
  /-- literal `0.90` of `is_high_coupling` -/
  c090 : W
  /-- `deviate_thresh` (include/CoMMA/Util.h:43) -/
  cdev : W
  /-- tolerance `1e-12` (include/CoMMA/Agglomerator.h:997) -/
  ctol : W

/-- `<` is a strict total order on `W` (no NaN).  Stated as a hypothesis where
it is needed; models no code. -/
structure LawfulLt (W : Type) [Num W] : Prop where
  irrefl : ∀ a : W, Num.lt a a = false
  trans : ∀ a b c : W, Num.lt a b = true → Num.lt b c = true → Num.lt a c = true
  total : ∀ a b : W, Num.lt a b = false → Num.lt b a = false → a = b

end CoMMA
