import Verif.Spec.Agglomeration
/-! # Coarse cells made of a core and of some of its neighbours -/

namespace CoMMA

/-- The cells with coarse index `k` in `f` are a connected core of at most `m` cells and cells that have a face in common
with the core. -/
structure CoreOf (rowPtr colInd f : List Nat) (k : Nat) (m : Int) (core : List Nat) : Prop where
  some : core ≠ []
  nodup : core.Nodup
  size : (core.length : Int) ≤ m
  connected : ConnectedSet rowPtr colInd (fun i => i ∈ core)
  inside : ∀ i ∈ core, f[i]? = Option.some k
  near : ∀ i : Nat, f[i]? = Option.some k → i ∉ core → ∃ c ∈ core, Adj rowPtr colInd i c

end CoMMA
