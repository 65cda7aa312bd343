import Verif.Model.Graph
/-! # Neighbourhood search (include/CoMMA/Dual_Graph.h, class `Dual_Graph`) -/

namespace CoMMA

variable {W : Type}

/-- `for (auto id : src) dst[id.first] = id.second;` (include/CoMMA/Dual_Graph.h:943-945) -/
def NMap.merge {V : Type} (dst src : NMap V) : NMap V :=
  src.entries.foldl (fun d e => d.insert e.1 e.2) dst

/-- decision for a free neighbour that is not in the final dictionary yet
(include/CoMMA/Dual_Graph.h:957-973) -/
def nbhAdd (prev : NMap Nat) (iOrder : Nat) (cur : NMap Nat) (x : Nat) : NMap Nat :=
  if cur.has x then cur
  else match prev.find? x with
    | some o => if iOrder < o then cur.insert x iOrder else cur
    | none => cur.insert x iOrder

/-- one neighbour (include/CoMMA/Dual_Graph.h:953-974) -/
def nbhVisit (d prev : NMap Nat) (agg : List Bool) (iOrder : Nat) (cur : NMap Nat) (x : Nat) : M (NMap Nat) :=
  if d.has x then pure cur
  else do
    let a ← rd agg x
    pure (if a then cur else nbhAdd prev iOrder cur x)

/-- the new layer (include/CoMMA/Dual_Graph.h:943-976); `h` gives the iteration order over
the unordered map of the previous layer -/
def Graph.nbhLayer (g : Graph W) (h : Hash) (d prev : NMap Nat) (agg : List Bool) (iOrder : Nat) : M (NMap Nat) :=
  (h.ord 3 prev.keys).foldlM (fun cur k => do
    let row ← g.neighs k
    row.foldlM (nbhVisit d prev agg iOrder) cur) NMap.empty

/-- state of the loop (include/CoMMA/Dual_Graph.h:926-989): current order, final dictionary, previous layer -/
structure NbhState where
  iOrder : Nat
  d : NMap Nat
  prev : NMap Nat

/-- loop condition (include/CoMMA/Dual_Graph.h:931-935).  The cast of the sizes to
`CoMMAIntType` is taken to be exact. -/
def nbhGo (nbOrder maxCard : Nat) (s : NbhState) : Bool :=
  decide (s.iOrder < nbOrder + 1) || decide (s.d.size + s.prev.size < maxCard)

/-- the while loop (include/CoMMA/Dual_Graph.h:931-989) -/
def Graph.nbhLoop (g : Graph W) (h : Hash) (agg : List Bool) (nbOrder maxCard : Nat) : Nat → NbhState → M NbhState
  | fuel, s =>
    if nbhGo nbOrder maxCard s then
      match fuel with
      | 0 => .error .fuel
      | fuel + 1 => do
        let d := s.d.merge s.prev
        let cur ← g.nbhLayer h d s.prev agg s.iOrder
        if cur.entries.isEmpty then pure { s with d := d }
        else g.nbhLoop h agg nbOrder maxCard fuel ⟨s.iOrder + 1, d, cur⟩
    else pure s

/-- `compute_neighbourhood_of_cc` (include/CoMMA/Dual_Graph.h:917-1006), with an initially
empty output dictionary (as at its only call).  Returns the order reached and the
dictionary. -/
def Graph.neighbourhood (g : Graph W) (h : Hash) (seeds : NSet) (nbOrder maxCard : Nat) (agg : List Bool) :
    M (Nat × NMap Nat) := do
  assertM (decide (1 < maxCard))
  let s ← g.nbhLoop h agg nbOrder maxCard (g.nbC + 1)
    ⟨1, NMap.empty, seeds.elems.foldl (fun m i => m.insert i 0) NMap.empty⟩
  let d := s.d.merge s.prev
  pure (s.iOrder, seeds.elems.foldl (fun m i => m.erase i) d)

end CoMMA
