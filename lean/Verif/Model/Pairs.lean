import Verif.Model.Containers
/-! # Pair comparators and ordered sets of pairs (include/CoMMA/Util.h) -/

namespace CoMMA

variable {W : Type} [Num W]

/-- `CustomPairLessFunctor::operator()` (include/CoMMA/Util.h:187-192), for pairs
(index, weight). -/
def lessPair (l r : Nat × W) : Bool :=
  if Num.lt l.2 r.2 then true
  else if Num.lt r.2 l.2 then false
  else decide (r.1 < l.1)

/-- `CustomPairGreaterFunctor::operator()` (include/CoMMA/Util.h:210-217), for pairs
(index, weight). -/
def greaterPair (l r : Nat × W) : Bool :=
  if Num.lt r.2 l.2 then true
  else if Num.lt l.2 r.2 then false
  else decide (l.1 < r.1)

/-- `std::set<pair, CustomPairGreaterFunctor>::emplace` (include/CoMMA/Agglomerator.h:186, 770, 812,
include/CoMMA/Dual_Graph.h:759, include/CoMMA/Neighbourhood.h:243): the set is the list of its
elements in iteration order; the new element goes before the first element that is
not ordered before it, unless the two are equivalent.  (For a comparator that is
not a strict weak order, e.g. with NaN, `std::set` is undefined; the model then
still follows this linear search.) -/
def pinsert (x : Nat × W) : List (Nat × W) → List (Nat × W)
  | [] => [x]
  | e :: es =>
    if greaterPair e x then e :: pinsert x es
    else if greaterPair x e then x :: e :: es
    else e :: es

/-- `vector_of_first_elements` / the loops that extract the indices of an ordered set
(include/CoMMA/Util.h:245-251, include/CoMMA/Neighbourhood.h:151-156) -/
def firsts (s : List (Nat × W)) : List Nat := s.map (·.1)

/-- `PairSecondBasedLessFunctor::operator()` (include/CoMMA/Util.h:232-234) -/
def secondLess (l r : Nat × W) : Bool := Num.lt l.2 r.2

end CoMMA
