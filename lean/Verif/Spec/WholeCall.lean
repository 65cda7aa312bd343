import Verif.Spec.Complete
import Verif.Spec.TopLevel
import Verif.Spec.LineGrowth
import Verif.Spec.AnyThreshold
import Verif.Spec.Threshold
/-! # Complete description of the result of any call -/

namespace CoMMA

variable {W F : Type} [Num W]

/-- The lines that a call agglomerates. -/
inductive TakesLines (g : Graph W) (a : Args W) (o : Outs) (n : Nat) : List (List Nat) → Prop where
  /-- lines grown from the compliant anisotropic cells, taken by priority -/
  | built {seeds : List Nat} {fls : List (List Nat)} : BuildsLines a n →
      (∀ i, i ∈ seeds ↔ i ∈ a.compliant ∧ IsAnisotropic g (meantThreshold a.thr) i) → seeds.Nodup →
      PriorityOrdered a.prio seeds → LinesFrom g (meantCoupling a) a.forceDir (· ∈ seeds) seeds fls →
      TakesLines g a o n fls
  /-- the given lines with at least two cells -/
  | given {ls : List (List Nat)} : GivesLines a o n ls → TakesLines g a o n (ls.filter (fun l => decide (1 < l.length)))

/-- A valid mode: the call has no lines, builds them (no coupling is negative), or is given
them; no line is one cell shorter than an odd limit. -/
structure ValidMode (g : Graph W) (a : Args W) (o : Outs) (n : Nat) : Prop where
  mode : WithoutLines a o ∨ (BuildsLines a n ∧ NonnegCouplings g (meantCoupling a)) ∨ ∃ ls, GivesLines a o n ls
  fits : ∀ fls, TakesLines g a o n fls → FitsLimit a fls

/-- each line is read from its chosen end and cut into groups -/
def CutsLines (g : Graph W) (a : Args W) (fls : List (List Nat)) (gss : List (List (List Nat))) : Prop :=
  List.Forall₂ (fun line groups => ∃ l, Oriented g.nBnd a.prio line l ∧ Pairs a.oddLine (lineLimit a) 0 l groups) fls gss

/-- the coarse cells of the lines are numbered first, line after line -/
def NumbersLines (gss : List (List (List Nat))) (cls : List (List Nat)) : Prop :=
  cls.map List.length = gss.map List.length ∧ cls.flatten = List.range gss.flatten.length

/-- What a call without correction does once the lines are cut into the groups `gss`: each group
is a coarse cell; the free neighbours of the lines are the first to wait in the pool; coarse
cells are made one after the other from the seeds given by the pool, until no cell is left. -/
def MapAfterLines (E : IsoEnv W F) (Grown : NMap Nat → Nat → List Nat → Prop) (n : Nat)
    (gss : List (List (List Nat))) (f : List Nat) : Prop :=
  ∃ agg0 p0 cs agg p, agg0 = (List.range n).map (fun i => decide (i ∈ gss.flatten.flatten)) ∧
    PoolAfterLines E.pool agg0 ((gss.flatten.flatten.flatMap (rowOf E.g.rowPtr E.g.colInd)).filter
      (fun x => decide (agg0[x]? = some false))) p0 ∧
    IsoTrace E Grown agg0 p0 cs agg p ∧ agg = List.replicate n true ∧
    Numbers n (gss.flatten.map NSet.ofList ++ cs.map Prod.snd) f

/-- Lines, groups and exported lines of a call; without lines the output arguments for lines
are not touched. -/
inductive LinesOfCall (g : Graph W) (a : Args W) (o : Outs) (n : Nat) (gss : List (List (List Nat))) (out : Outs) : Prop where
  | off : WithoutLines a o → gss = [] → out.linesIdx = o.linesIdx → out.lines = o.lines → LinesOfCall g a o n gss out
  | on {fls cls : List (List Nat)} : TakesLines g a o n fls → CutsLines g a fls gss → NumbersLines gss cls →
      Exports out cls → LinesOfCall g a o n gss out

/-- The description of the outputs of a call.  `Grown E` says how a coarse cell grows, `Fixed m`
what correction does to the map, `m` being the number of coarse cells made from lines. -/
def DescribedBy (P : Platform) (a : Args W) (o : Outs) (n : Nat)
    (Grown : IsoEnv W (Feats W) → NMap Nat → Nat → List Nat → Prop) (Fixed : Nat → List Nat → List Nat → Prop)
    (out : Outs) : Prop :=
  ∃ E gss f0, CallEnv P a E ∧ LinesOfCall E.g a o n gss out ∧ MapAfterLines E (Grown E) n gss f0 ∧
    Fixed gss.flatten.length f0 out.fcToCc

/-- the first `m` coarse cells are those made from lines: none without lines, else those that
are exported -/
def LineCells (a : Args W) (o out : Outs) (m : Nat) : Prop :=
  (WithoutLines a o ∧ m = 0) ∨ (¬ WithoutLines a o ∧ out.lines = List.range m)

/-- no correction, or correction of single cells -/
def FixedSingles (a : Args W) (m : Nat) (f0 f : List Nat) : Prop :=
  if a.correction then CorrectionOf a.rowPtr a.colInd m f0 f else f = f0

/-- no correction, or correction of small cells -/
def FixedSmalls (a : Args W) (m : Nat) (f0 f : List Nat) : Prop :=
  if a.correction then SmallCorrectionOf a.rowPtr a.colInd m (sizeLimit a) f0 f else f = f0

end CoMMA
