import Verif.Model.Core
/-! # Deprecated containers (include/CoMMA/deprecated)

Not modelled: `Bimap::print`, `Tree::print`, `fill_value` (a conditional assignment). -/

namespace CoMMA

/-! ## Queue -/

/-- `Queue` (include/CoMMA/deprecated/Queue.h:28-69): the deque `_elems`, front first -/
structure Queue (T : Type) where
  elems : List T

/-- constructor (include/CoMMA/deprecated/Queue.h:36) -/
def Queue.new {T : Type} : Queue T := ⟨[]⟩

/-- `push` (include/CoMMA/deprecated/Queue.h:43) -/
def Queue.push {T : Type} (q : Queue T) (x : T) : Queue T := ⟨q.elems ++ [x]⟩

/-- `pop` (include/CoMMA/deprecated/Queue.h:48-55); `minusOne` is `static_cast<T>(-1)` -/
def Queue.pop {T : Type} (minusOne : T) (q : Queue T) : T × Queue T :=
  match q.elems with
  | [] => (minusOne, q)
  | x :: l => (x, ⟨l⟩)

/-- `top` (include/CoMMA/deprecated/Queue.h:60-65) -/
def Queue.top {T : Type} (minusOne : T) (q : Queue T) : T :=
  match q.elems with
  | [] => minusOne
  | x :: _ => x

/-- `empty` (include/CoMMA/deprecated/Queue.h:70) -/
def Queue.empty {T : Type} (q : Queue T) : Bool := q.elems.isEmpty

/-- calls that change a queue (include/CoMMA/deprecated/Queue.h:43, 48-55) -/
inductive QueueCall (T : Type) where
  | push (x : T)
  | pop

/-- one call (include/CoMMA/deprecated/Queue.h:43, 48-55, 70); the values returned by `pop` are collected, with the answer of `empty` just before -/
def Queue.call {T : Type} (minusOne : T) (s : List (Bool × T) × Queue T) :
    QueueCall T → List (Bool × T) × Queue T
  | .push x => (s.1, s.2.push x)
  | .pop => (s.1 ++ [(s.2.empty, (s.2.pop minusOne).1)], (s.2.pop minusOne).2)

/-- a history of calls on a new queue (include/CoMMA/deprecated/Queue.h:36-70) -/
def Queue.calls {T : Type} (minusOne : T) (l : List (QueueCall T)) : List (Bool × T) × Queue T :=
  l.foldl (Queue.call minusOne) ([], Queue.new)

/-! ## Priority_Pair -/

/-- `operator<` (include/CoMMA/deprecated/Priority_Pair.h:65-70); the arguments are the operators
`<` of the two types, `>` is `<` with its arguments swapped -/
def ppLt {A B : Type} (ltA : A → A → Bool) (ltB : B → B → Bool) (x y : A × B) : Bool :=
  if ltA y.1 x.1 then true
  else if ltA x.1 y.1 then false
  else ltB x.2 y.2

/-- `operator==` (include/CoMMA/deprecated/Priority_Pair.h:77-81) -/
def ppEq {A B : Type} [DecidableEq A] [DecidableEq B] (x y : A × B) : Bool :=
  decide (x.1 = y.1) && decide (x.2 = y.2)

/-! ## Bimap -/

/-- a node of one of the two `std::map` (include/CoMMA/deprecated/Bimap.h:44-51, 133-136): key, address of the key, pointer to a key of the other
map (`none` is `nullptr`) -/
structure BNode (K : Type) where
  key : K
  addr : Nat
  ptr : Option Nat
deriving DecidableEq

/-- `Bimap` (include/CoMMA/deprecated/Bimap.h:28-137): `_mapA`, `_mapB` and the next free address.
The nodes of a map are kept in the order of insertion: only `print` depends on the order. -/
structure Bimap (A B : Type) where
  mapA : List (BNode B)
  mapB : List (BNode A)
  next : Nat

variable {A B : Type} [DecidableEq A] [DecidableEq B]

/-- `std::map::find` (include/CoMMA/deprecated/Bimap.h:93, 115) -/
def findKey {K : Type} [DecidableEq K] (l : List (BNode K)) (k : K) : Option (BNode K) :=
  l.find? (fun x => decide (x.key = k))

/-- value behind a pointer to a key (include/CoMMA/deprecated/Bimap.h:94, 105); a null pointer or one to a node that is gone is undefined
behaviour -/
def derefKey {K : Type} (l : List (BNode K)) (p : Option Nat) : M K :=
  match p with
  | none => .error .ub
  | some i =>
    match l.find? (fun x => x.addr == i) with
    | none => .error .ub
    | some x => .ok x.key

/-- `std::map::insert({k, p})` (include/CoMMA/deprecated/Bimap.h:45, 48): the map, the address of the key, the next free address -/
def insertNode {K : Type} [DecidableEq K] (l : List (BNode K)) (next : Nat) (k : K) (p : Option Nat) :
    List (BNode K) × Nat × Nat :=
  match findKey l k with
  | some x => (l, x.addr, next)
  | none => (l ++ [⟨k, next, p⟩], next, next + 1)

/-- `Bimap::insert` (include/CoMMA/deprecated/Bimap.h:44-51) -/
def Bimap.insert (m : Bimap A B) (a : A) (b : B) : Bimap A B :=
  let ra := insertNode m.mapA m.next b none
  let rb := insertNode m.mapB ra.2.2 a (some ra.2.1)
  { mapA := ra.1.map (fun x => if x.key = b then { x with ptr := some rb.2.1 } else x),
    mapB := rb.1, next := rb.2.2 }

/-- `extract`, new key, `insert` of the node (include/CoMMA/deprecated/Bimap.h:65-71, 78-84): the
node keeps its address; if the new key is already there the node is destroyed -/
def renameKey {K : Type} [DecidableEq K] (l : List (BNode K)) (old new : K) : List (BNode K) :=
  match findKey l old with
  | none => l
  | some _ =>
    let rest := l.filter (fun x => !decide (x.key = old))
    match findKey rest new with
    | some _ => rest
    | none => l.map (fun x => if x.key = old then { x with key := new } else x)

/-- `update_nodeB` (include/CoMMA/deprecated/Bimap.h:65-71) -/
def Bimap.updateB (m : Bimap A B) (old new : A) : Bimap A B :=
  { m with mapB := renameKey m.mapB old new }

/-- `update_nodeA` (include/CoMMA/deprecated/Bimap.h:78-84) -/
def Bimap.updateA (m : Bimap A B) (old new : B) : Bimap A B :=
  { m with mapA := renameKey m.mapA old new }

/-- `get_B` (include/CoMMA/deprecated/Bimap.h:90-95); a missing key is undefined behaviour -/
def Bimap.getB (m : Bimap A B) (a : A) : M B :=
  match findKey m.mapB a with
  | none => .error .ub
  | some x => derefKey m.mapA x.ptr

/-- `get_A` (include/CoMMA/deprecated/Bimap.h:101-106) -/
def Bimap.getA (m : Bimap A B) (b : B) : M A :=
  match findKey m.mapA b with
  | none => .error .ub
  | some x => derefKey m.mapB x.ptr

/-- `erase_B` (include/CoMMA/deprecated/Bimap.h:112-120) -/
def Bimap.eraseB (m : Bimap A B) (a : A) : M (Bimap A B) :=
  match findKey m.mapB a with
  | none => .error .ub
  | some x => do
    let be ← derefKey m.mapA x.ptr
    match findKey m.mapA be with
    | none => .error .ub
    | some _ => pure { m with mapA := m.mapA.filter (fun y => !decide (y.key = be)),
                              mapB := m.mapB.filter (fun y => !decide (y.key = a)) }

/-- `empty` (include/CoMMA/deprecated/Bimap.h:125) -/
def Bimap.empty (m : Bimap A B) : Bool := m.mapA.isEmpty

/-- `lung` (include/CoMMA/deprecated/Bimap.h:130) -/
def Bimap.lung (m : Bimap A B) : Nat := m.mapB.length

/-- constructor (include/CoMMA/deprecated/Bimap.h:31) -/
def Bimap.new : Bimap A B := ⟨[], [], 0⟩

/-- calls that change a bimap (include/CoMMA/deprecated/Bimap.h:44-51, 65-71, 78-84, 112-120) -/
inductive BimapCall (A B : Type) where
  | insert (a : A) (b : B)
  | updateB (old new : A)
  | updateA (old new : B)
  | eraseB (a : A)
deriving DecidableEq

/-- one call (include/CoMMA/deprecated/Bimap.h:44-51, 65-71, 78-84, 112-120) -/
def Bimap.call (m : Bimap A B) : BimapCall A B → M (Bimap A B)
  | .insert a b => pure (m.insert a b)
  | .updateB o n => pure (m.updateB o n)
  | .updateA o n => pure (m.updateA o n)
  | .eraseB a => m.eraseB a

/-- a history of calls on a new bimap (include/CoMMA/deprecated/Bimap.h:31-120) -/
def Bimap.calls (l : List (BimapCall A B)) : M (Bimap A B) := l.foldlM Bimap.call Bimap.new

/-! ## Tree -/

/-- A son of a son of the root (include/CoMMA/deprecated/Tree.h:36-54): its index.  Volumes are
stored and never read. -/
structure Leaf (T : Type) where
  index : T
deriving DecidableEq

/-- a son of the root with `_sonc` and its sons, leftmost first (include/CoMMA/deprecated/Tree.h:36-54) -/
structure Son (T : Type) where
  index : T
  sonc : Int
  sons : List (Leaf T)
deriving DecidableEq

/-- `Tree` (include/CoMMA/deprecated/Tree.h:68-194).  The doubly linked chains `_left_idx`,
`_right_idx` are lists: the leftmost node is the head. -/
structure Tree (T : Type) where
  sonc : Int
  sons : List (Son T)
deriving DecidableEq

/-- constructor with a new root (include/CoMMA/deprecated/Tree.h:76-77) -/
def Tree.new {T : Type} : Tree T := ⟨0, []⟩

/-- add a leaf to the first son with a given index (include/CoMMA/deprecated/Tree.h:99-110) -/
def addLeaf {T : Type} [DecidableEq T] (father index : T) : List (Son T) → List (Son T)
  | [] => []
  | s :: l => if s.index = father then
      { s with sonc := s.sonc + 1, sons := s.sons ++ [⟨index⟩] } :: l
    else s :: addLeaf father index l

/-- `insertSon` and `search` (include/CoMMA/deprecated/Tree.h:91-112, 119-129): the search is
made among the sons of the root; without sons a null pointer is dereferenced; a father that is
not found fails the assertion -/
def Tree.insertSon {T : Type} [DecidableEq T] (t : Tree T) (father index : T) (root : Int) : M (Tree T) :=
  if root = 1 then pure ⟨t.sonc + 1, t.sons ++ [⟨index, 0, []⟩]⟩
  else if t.sons = [] then .error .ub
  else if t.sons.any (fun s => decide (s.index = father)) then
    pure { t with sons := addLeaf father index t.sons }
  else .error .assertion

/-- `delete_node` (include/CoMMA/deprecated/Tree.h:153-178); `first` tells that the chain starts
at the leftmost node.  Deleting the leftmost node when it has no right one dereferences a null
pointer. -/
def deleteSon {T : Type} [DecidableEq T] (value : T) : Bool → List (Son T) → M (Bool × List (Son T))
  | _, [] => pure (false, [])
  | first, s :: l =>
    if s.index = value then
      if first = true ∧ l = [] then .error .ub else pure (true, l)
    else do
      let r ← deleteSon value false l
      pure (r.1, s :: r.2)

/-- `deleteNode` (include/CoMMA/deprecated/Tree.h:145-147) -/
def Tree.deleteNode {T : Type} [DecidableEq T] (t : Tree T) (value : T) : M (Tree T) := do
  let r ← deleteSon value true t.sons
  pure ⟨if r.1 then t.sonc - 1 else t.sonc, r.2⟩

end CoMMA
