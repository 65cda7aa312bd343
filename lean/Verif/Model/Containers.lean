import Verif.Model.Core
/-!
# Standard containers

`NSet`/`NMap` model `std::(unordered_)set<Index>` and
`std::(unordered_)map<Index, V>` by their contents, kept in a canonical
(increasing) order.  Iteration over an *ordered* container uses that order;
iteration over an *unordered* one goes through a `Hash` oracle that may permute
it arbitrarily.
-/

namespace CoMMA

/-! ## Sets of indices -/

/-- insertion in an increasing list, nothing happens if present: contents of a set after `insert`
(include/CoMMA/Coarse_Cell.h:104) -/
def insertL (x : Nat) : List Nat → List Nat
  | [] => [x]
  | y :: ys => if x < y then x :: y :: ys else if x = y then y :: ys else y :: insertL x ys

theorem mem_insertL {x a : Nat} {l : List Nat} : a ∈ insertL x l ↔ a = x ∨ a ∈ l := by
  induction l with
  | nil => simp [insertL]
  | cons y ys ih =>
    unfold insertL
    split
    · simp
    · split
      · rename_i h; subst h; simp
      · simp only [List.mem_cons, ih]; constructor <;> (rintro (h | h | h) <;> simp_all)

theorem insertL_sorted {x : Nat} {l : List Nat} (h : l.Pairwise (· < ·)) :
    (insertL x l).Pairwise (· < ·) := by
  induction l with
  | nil => simp [insertL]
  | cons y ys ih =>
    rw [List.pairwise_cons] at h
    unfold insertL
    split
    · rename_i hxy
      rw [List.pairwise_cons, List.pairwise_cons]
      refine ⟨fun b hb => ?_, h.1, h.2⟩
      rcases List.mem_cons.1 hb with rfl | hb
      · exact hxy
      · exact Nat.lt_trans hxy (h.1 b hb)
    · split
      · exact List.pairwise_cons.2 h
      · refine List.pairwise_cons.2 ⟨fun b hb => ?_, ih h.2⟩
        rcases mem_insertL.1 hb with rfl | hb
        · omega
        · exact h.1 b hb

/-- `std::set<Index>` / `std::unordered_set<Index>` (contents), as at include/CoMMA/Coarse_Cell.h:87 and
include/CoMMA/Coarse_Cell_Container.h:119. -/
structure NSet where
  elems : List Nat
  sorted : elems.Pairwise (· < ·)
  deriving DecidableEq

namespace NSet

instance : Membership Nat NSet := ⟨fun s a => a ∈ s.elems⟩
instance (a : Nat) (s : NSet) : Decidable (a ∈ s) := inferInstanceAs (Decidable (a ∈ s.elems))

/-- `{}` (include/CoMMA/Coarse_Cell_Container.h:182) -/
def empty : NSet := ⟨[], List.Pairwise.nil⟩
/-- `s.insert(x)` (include/CoMMA/Coarse_Cell.h:104) -/
def insert (s : NSet) (x : Nat) : NSet := ⟨insertL x s.elems, insertL_sorted s.sorted⟩
/-- `s.erase(x)`: completes the operations of sets; the code erases only from maps and vectors, as at
include/CoMMA/Dual_Graph.h:1002 -/
def erase (s : NSet) (x : Nat) : NSet :=
  ⟨s.elems.filter (fun y => y != x), s.sorted.filter _⟩
/-- `s.size()` (include/CoMMA/Agglomerator.h:1469) -/
def card (s : NSet) : Nat := s.elems.length
/-- `s.insert(first, last)` (include/CoMMA/Coarse_Cell.h:120) -/
def insertMany (s : NSet) (l : List Nat) : NSet := l.foldl insert s
/-- set of the elements of a list (include/CoMMA/Agglomerator.h:342-344) -/
def ofList (l : List Nat) : NSet := insertMany empty l
/-- `{x}` (include/CoMMA/Agglomerator.h:1234) -/
def single (x : Nat) : NSet := empty.insert x
/-- `s.count(x) > 0` (include/CoMMA/Dual_Graph.h:299) -/
def has (s : NSet) (x : Nat) : Bool := decide (x ∈ s)

end NSet

/-! ## Maps keyed by indices -/

/-- insertion (with replacement) in a list increasing in its keys: contents of a map after `m[k] = v`
(include/CoMMA/Dual_Graph.h:944) -/
def insertKV {V : Type} (k : Nat) (v : V) : List (Nat × V) → List (Nat × V)
  | [] => [(k, v)]
  | (k', v') :: r =>
    if k < k' then (k, v) :: (k', v') :: r
    else if k = k' then (k, v) :: r
    else (k', v') :: insertKV k v r

theorem keys_insertKV {V : Type} {k : Nat} {v : V} {l : List (Nat × V)} {p : Nat × V}
    (h : p ∈ insertKV k v l) : p.1 = k ∨ p ∈ l := by
  induction l with
  | nil => simp [insertKV] at h; simp [h]
  | cons q r ih =>
    obtain ⟨k', v'⟩ := q
    unfold insertKV at h
    split at h
    · simp only [List.mem_cons] at h ⊢
      rcases h with rfl | h | h <;> simp_all
    · split at h
      · simp only [List.mem_cons] at h ⊢
        rcases h with rfl | h <;> simp_all
      · simp only [List.mem_cons] at h ⊢
        rcases h with h | h
        · simp_all
        · rcases ih h with h | h <;> simp_all

theorem insertKV_sorted {V : Type} {k : Nat} {v : V} {l : List (Nat × V)}
    (h : l.Pairwise (fun a b => a.1 < b.1)) :
    (insertKV k v l).Pairwise (fun a b => a.1 < b.1) := by
  induction l with
  | nil => simp [insertKV]
  | cons q r ih =>
    obtain ⟨k', v'⟩ := q
    rw [List.pairwise_cons] at h
    unfold insertKV
    split
    · rename_i hk
      rw [List.pairwise_cons, List.pairwise_cons]
      refine ⟨fun b hb => ?_, h.1, h.2⟩
      rcases List.mem_cons.1 hb with rfl | hb
      · exact hk
      · exact Nat.lt_trans hk (h.1 b hb)
    · split
      · rename_i hk; subst hk
        exact List.pairwise_cons.2 ⟨h.1, h.2⟩
      · refine List.pairwise_cons.2 ⟨fun b hb => ?_, ih h.2⟩
        rcases keys_insertKV hb with hb | hb
        · simp only at *; omega
        · exact h.1 b hb

/-- `std::map<Index, V>` / `std::unordered_map<Index, V>` (contents), as at
include/CoMMA/Coarse_Cell_Container.h:76 and include/CoMMA/Agglomerator.h:1238. -/
structure NMap (V : Type) where
  entries : List (Nat × V)
  sorted : entries.Pairwise (fun a b => a.1 < b.1)

instance {V : Type} [DecidableEq V] : DecidableEq (NMap V) := fun a b =>
  if h : a.entries = b.entries then
    .isTrue (by cases a; cases b; simp_all)
  else .isFalse (by rintro rfl; exact h rfl)

namespace NMap
variable {V : Type}

/-- `{}` (include/CoMMA/Agglomerator.h:1325) -/
def empty : NMap V := ⟨[], List.Pairwise.nil⟩
/-- lookup (include/CoMMA/Dual_Graph.h:957) -/
def find? (m : NMap V) (k : Nat) : Option V := m.entries.lookup k
/-- `m.count(k) > 0` (include/CoMMA/Dual_Graph.h:957, 961, 964) -/
def has (m : NMap V) (k : Nat) : Bool := (m.find? k).isSome
/-- `m[k] = v` (include/CoMMA/Dual_Graph.h:930, 944) -/
def insert (m : NMap V) (k : Nat) (v : V) : NMap V :=
  ⟨insertKV k v m.entries, insertKV_sorted m.sorted⟩
/-- `m.erase(k)` (include/CoMMA/Dual_Graph.h:1002, include/CoMMA/Coarse_Cell_Container.h:224) -/
def erase (m : NMap V) (k : Nat) : NMap V :=
  ⟨m.entries.filter (fun e => e.1 != k), m.sorted.filter _⟩
/-- `m.size()` (include/CoMMA/Dual_Graph.h:937) -/
def size (m : NMap V) : Nat := m.entries.length
/-- the keys, increasing (include/CoMMA/Util.h:291-299) -/
def keys (m : NMap V) : List Nat := m.entries.map (·.1)
/-- `m.at(k)`: throws `std::out_of_range` if absent (include/CoMMA/Agglomerator.h:1459, 1538) -/
def at! (m : NMap V) (k : Nat) : M V :=
  match m.find? k with
  | some v => .ok v
  | none => .error .outOfRange

/-- `d_keys_to_set(m)` (include/CoMMA/Util.h:291-299) -/
def keySet (m : NMap V) : NSet :=
  ⟨m.keys, List.pairwise_map.2 m.sorted⟩

end NMap

/-- Iteration order of unordered containers (for instance include/CoMMA/Dual_Graph.h:947): an arbitrary permutation of the
contents, possibly different at each place in the code (`site`).
Simplification: the order is a function of the site and the contents, not of the
insertion history; `Verif.Model.History` is the model without this simplification. -/
structure Hash where
  ord : Nat → List Nat → List Nat
  perm : ∀ site l, (ord site l).Perm l

/-- the oracle that iterates in increasing order: one of the orders allowed at include/CoMMA/Dual_Graph.h:947 -/
def Hash.id : Hash := ⟨fun _ l => l, fun _ l => List.Perm.refl l⟩
/-- the oracle that iterates in decreasing order: one of the orders allowed at include/CoMMA/Dual_Graph.h:947 -/
def Hash.rev : Hash := ⟨fun _ l => l.reverse, fun _ l => List.reverse_perm l⟩

end CoMMA
