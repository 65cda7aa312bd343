import Verif.Model.Container
/-! # Correction of singular coarse cells
(include/CoMMA/Coarse_Cell_Container.h:108-471) -/

namespace CoMMA

variable {W : Type}

/-- `insert_cell` (include/CoMMA/Coarse_Cell.h:101-109); the optional compactness is always
given when a cell is corrected -/
def CC.insertCell (cc : CC) (i k : Nat) : CC :=
  { cc with fcs := cc.fcs.insert i, card := cc.card + 1, compact := k }

/-- `insert_cells` (include/CoMMA/Coarse_Cell.h:116-125) -/
def CC.insertCells (cc : CC) (s : NSet) (k : Nat) : CC :=
  { cc with fcs := cc.fcs.insertMany s.elems, card := cc.card + s.card, compact := k }

/-- `get_neighs_cc` (include/CoMMA/Coarse_Cell_Container.h:116-127) -/
def neighsCC (g : Graph W) (fc2cc : List (Option Nat)) (i old : Nat) : M NSet := do
  let row ← g.neighs i
  row.foldlM (fun (s : NSet) j => do
    let o ← rd fc2cc j
    let k ← valueM o
    pure (if k ≠ old then s.insert k else s)) NSet.empty

/-- `get_shared_faces` (include/CoMMA/Coarse_Cell_Container.h:461-471); a sum, so the
iteration order cannot matter -/
def sharedWith (g : Graph W) (fc : Nat) (s : NSet) : M Nat :=
  s.elems.foldlM (fun a i => do
    let row ← g.neighs i
    pure (a + row.count fc)) 0

/-- what is computed for each isotropic neighbour (include/CoMMA/Coarse_Cell_Container.h:346-348, 361-400) -/
structure NbRec where
  id : Nat
  card : Nat
  shared : Nat
  compact : Nat
  better : Bool
  deriving DecidableEq

/-- features of one neighbour (include/CoMMA/Coarse_Cell_Container.h:370-397) -/
def nbRec (g : Graph W) (fc id : Nat) (cc : CC) : M NbRec := do
  let sf ← sharedWith g fc cc.fcs
  let k ← g.minCompactness (cc.fcs.insert fc)
  pure ⟨id, cc.card, sf, k, decide (cc.compact < k)⟩

/-- the loop over the neighbours (include/CoMMA/Coarse_Cell_Container.h:361-400) -/
def isoRecs (g : Graph W) (ccs : NMap CC) (fc : Nat) (neighs : NSet) : M (List NbRec) :=
  neighs.elems.foldlM (fun l id => do
    let cc ← ccs.at! id
    if cc.iso then do
      let r ← nbRec g fc id cc
      pure (l ++ [r])
    else pure l) []

/-- the loop of choice 1 (include/CoMMA/Coarse_Cell_Container.h:405-419) -/
def pickCompact (r : NbRec) (l : List NbRec) : NbRec :=
  l.foldl (fun r x => if r.shared < x.shared then x
    else if x.shared = r.shared ∧ x.card < r.card then x else r) r

/-- `argmax_shared_f` (include/CoMMA/Coarse_Cell_Container.h:353, 382-388) -/
def argMaxShared (l : List NbRec) : List NbRec :=
  (l.foldl (fun (a : Nat × List NbRec) x =>
    if a.1 < x.shared then (x.shared, [x])
    else if x.shared = a.1 then (a.1, a.2 ++ [x]) else a) (0, [])).2

/-- the loop of choice 2 (include/CoMMA/Coarse_Cell_Container.h:424-436) -/
def pickCard (r : NbRec) (l : List NbRec) : NbRec :=
  l.foldl (fun r x => if x.card < r.card then x else r) r

/-- `select_best_cc_to_agglomerate` (include/CoMMA/Coarse_Cell_Container.h:339-453): index
and compactness of the receiver.  The lists are built in increasing order of index, so
sorting them changes nothing.  The branches after choice 2 are dead code: `argmax_shared_f`
is empty only without isotropic neighbour. -/
def selectCC (g : Graph W) (ccs : NMap CC) (fc : Nat) (neighs : NSet) : M (Option (Nat × Nat)) := do
  let recs ← isoRecs g ccs fc neighs
  match recs.filter (fun r => r.better) with
  | r :: l =>
    let b := pickCompact r (r :: l)
    pure (some (b.id, b.compact))
  | [] =>
    match argMaxShared recs with
    | r :: l =>
      let b := pickCard r (r :: l)
      pure (some (b.id, b.compact))
    | [] => pure none

/-- the loop of `select_best_cc_to_agglomerate_whole`
(include/CoMMA/Coarse_Cell_Container.h:286-306): index, cardinality and new compactness of
the isotropic neighbours whose compactness would increase -/
def wholeRecs (g : Graph W) (ccs : NMap CC) (fcs neighs : NSet) : M (List (Nat × Nat × Nat)) :=
  neighs.elems.foldlM (fun l id => do
    let cc ← ccs.at! id
    if cc.iso then do
      let k ← g.minCompactness (cc.fcs.insertMany fcs.elems)
      pure (if cc.compact < k then l ++ [(id, cc.card, k)] else l)
    else pure l) []

/-- `select_best_cc_to_agglomerate_whole`
(include/CoMMA/Coarse_Cell_Container.h:271-324) -/
def selectWhole (g : Graph W) (ccs : NMap CC) (fcs neighs : NSet) : M (Option (Nat × Nat)) := do
  let recs ← wholeRecs g ccs fcs neighs
  match recs with
  | r :: l =>
    let b := l.foldl (fun r x => if x.2.1 < r.2.1 then x else r) r
    pure (some (b.1, b.2.2))
  | [] => pure none

/-- one fine cell given to another coarse cell
(include/CoMMA/Coarse_Cell_Container.h:212-213); `_ccs[new_cc]` exists since `.at` found
it -/
def moveCell (c : Cont) (i : Nat) (r : Nat × Nat) : M Cont := do
  let f ← wr c.fc2cc i (some r.1)
  let cc ← c.ccs.at! r.1
  pure { c with fc2cc := f, ccs := c.ccs.insert r.1 (cc.insertCell i r.2) }

/-- the neighbouring coarse cells of each cell of a coarse cell
(include/CoMMA/Coarse_Cell_Container.h:174-179, 205); iteration over an unordered set -/
def neighsByFc (g : Graph W) (h : Hash) (c : Cont) (old : Nat) (fcs : NSet) : M (List (Nat × NSet)) :=
  (h.ord 5 fcs.elems).mapM (fun i => do
    let s ← neighsCC g c.fc2cc i old
    pure (i, s))

/-- first try: the whole coarse cell (include/CoMMA/Coarse_Cell_Container.h:180-201) -/
def tryWhole (g : Graph W) (c : Cont) (cc : CC) (nb : List (Nat × NSet)) : M (Option Cont) :=
  if 1 < cc.card then do
    let glob := nb.foldl (fun (s : NSet) e => s.insertMany e.2.elems) NSet.empty
    if glob.card = 0 then pure none
    else do
      let o ← selectWhole g c.ccs cc.fcs glob
      match o with
      | none => pure none
      | some r => do
        let f ← cc.fcs.elems.foldlM (fun f i => wr f i (some r.1)) c.fc2cc
        let cc' ← c.ccs.at! r.1
        pure (some { c with fc2cc := f, ccs := c.ccs.insert r.1 (cc'.insertCells cc.fcs r.2) })
  else pure none

/-- second try: fine cell by fine cell (include/CoMMA/Coarse_Cell_Container.h:202-221) -/
def tryCells (g : Graph W) (c : Cont) (nb : List (Nat × NSet)) : M (Bool × Cont) :=
  nb.foldlM (fun (a : Bool × Cont) e =>
    if e.2.card = 0 then pure a
    else do
      let o ← selectCC g a.2.ccs e.1 e.2
      match o with
      | none => pure a
      | some r => do
        let c ← moveCell a.2 e.1 r
        pure (true, c)) (false, c)

/-- removal of the corrected cell (include/CoMMA/Coarse_Cell_Container.h:223-226) -/
def dropCC (c : Cont) (removed : NSet) (old : Nat) : Cont × NSet :=
  ({ c with ccs := c.ccs.erase old }, removed.insert old)

/-- body of the loop over the singular cells
(include/CoMMA/Coarse_Cell_Container.h:167-228) -/
def correctStep (g : Graph W) (h : Hash) (a : Cont × NSet) (old : Nat) : M (Cont × NSet) := do
  let cc ← a.1.ccs.at! old
  if cc.card ≤ a.1.thresh then do
    let nb ← neighsByFc g h a.1 old cc.fcs
    let w ← tryWhole g a.1 cc nb
    match w with
    | some c => pure (dropCC c a.2 old)
    | none => do
      let t ← tryCells g a.1 nb
      pure (if t.1 then dropCC t.2 a.2 old else (t.2, a.2))
  else pure a

/-- assignment of a new index to the fine cells of a coarse cell
(include/CoMMA/Coarse_Cell_Container.h:244-246) -/
def renameCells (f : List (Option Nat)) (s : NSet) (k : Nat) : M (List (Option Nat)) :=
  s.elems.foldlM (fun f i => wr f i (some k)) f

/-- the renumbering loop (include/CoMMA/Coarse_Cell_Container.h:231-254).  Simplification:
the C++ loop keeps using an iterator to a node that was extracted and inserted again; the
model follows what implementations do (go on with the next larger key).  Incrementing
`end()`, when the cell before the first removed one is missing, is undefined behaviour. -/
def renumber (c : Cont) (first : Nat) : M Cont :=
  if first = 0 ∨ c.ccs.has (first - 1) = true then do
    let kept := c.ccs.entries.filter (fun e => e.1 < first)
    let rest := c.ccs.entries.filter (fun e => decide (first ≤ e.1))
    let r ← rest.foldlM (fun (a : List (Option Nat) × NMap CC × Nat) e => do
      let f ← renameCells a.1 e.2.fcs a.2.2
      pure (f, a.2.1.insert a.2.2 e.2, a.2.2 + 1))
      (c.fc2cc, kept.foldl (fun (m : NMap CC) e => m.insert e.1 e.2) NMap.empty, first)
    pure { c with fc2cc := r.1, ccs := r.2.1 }
  else .error .ub

/-- `correct` (include/CoMMA/Coarse_Cell_Container.h:164-255) -/
def Cont.correct (g : Graph W) (h : Hash) (c : Cont) : M Cont := do
  let r ← c.singular.foldlM (correctStep g h) (c, NSet.empty)
  match r.2.elems with
  | [] => pure r.1
  | first :: _ => renumber r.1 first

end CoMMA
