import Verif.Conformance.Meshes
/-! # The model against the unit tests: seeds pool (tests/test_seedspool.cpp) -/

namespace CoMMA.Tests

/-- a seeds pool made by a test -/
def poolCfg (m : Mesh) (k : PoolKind) (one : Bool) (p : List Dbl) : PoolCfg Dbl := ⟨k, one, p, m.bnd, 2 ^ 64 - 1⟩

/-- seeds chosen one after the other, each marked as agglomerated -/
def chooseMany (c : PoolCfg Dbl) : Nat → List Bool → Pool → M (List (Option Nat) × Pool)
  | 0, _, p => pure ([], p)
  | n + 1, a, p => do
    let r ← p.choose c a
    let l ← chooseMany c n ((r.1.map fun i => a.set i true).getD a) r.2
    pure (r.1 :: l.1, l.2)

/-- the same, with the neighbours of each seed given to `update` in increasing order -/
def chooseAround (m : Mesh) (c : PoolCfg Dbl) : Nat → List Bool → Pool → M (List Nat)
  | 0, _, _ => pure []
  | n + 1, a, p => do
    let r ← p.choose c a
    match r.1 with
    | none => pure []
    | some i => do
      let ns ← (graphOf m.args).neighs i
      let p ← r.2.update c (NSet.ofList ns).elems
      let l ← chooseAround m c n (a.set i true) p
      pure (i :: l)

/-- seeds of a whole mesh -/
def seedsOf (m : Mesh) (k : PoolKind) (one : Bool) : Option (List Nat) :=
  val (do
    let p ← Pool.new.initialize (poolCfg m k one m.prio)
    chooseAround m (poolCfg m k one m.prio) m.n (List.replicate m.n false) p)

/-- cells of the cube with a given number of boundary faces -/
def cubeLevel (k : Nat) : List Nat := (List.range 64).filter fun i => cube4.bnd[i]? == some k

/-- seeds of the cube without updates -/
def cubeSeeds (prio : List Dbl) : Option (List (Option Nat)) :=
  val (do
    let p ← Pool.new.initialize (poolCfg cube4 .boundary false prio)
    let r ← chooseMany (poolCfg cube4 .boundary false prio) 64 (List.replicate 64 false) p
    pure r.1)

/-- empty before it is initialized (tests/test_seedspool.cpp:58-67) -/
example : val (do
    let e ← Pool.new.isEmpty
    let r ← Pool.new.needInit (poolCfg cube4 .boundary false cube4.prio) (List.replicate 64 false)
    pure (e, r.1)) = some (true, true) := by decide +kernel

/-- corners, ridges, valleys, interior, each in the order of the priorities (tests/test_seedspool.cpp:69-97,
203-262) -/
example : cubeSeeds cube4.prio =
    some ((cubeLevel 3 ++ cubeLevel 2 ++ cubeLevel 1 ++ cubeLevel 0).map some) := by decide +kernel
example : cubeSeeds ((List.range 64).map fun i => Num.ofNat i) =
    some (((cubeLevel 3).reverse ++ (cubeLevel 2).reverse ++ (cubeLevel 1).reverse ++ (cubeLevel 0).reverse).map some) := by
  decide +kernel

/-- the corners are chosen, then some seeds are added and chosen, then others -/
def cubeUpdates (add : PoolCfg Dbl → List Nat → Pool → M Pool) : Option (List (Option Nat) × List (Option Nat)) :=
  val (do
    let c := poolCfg cube4 .boundary false cube4.prio
    let p ← Pool.new.initialize c
    let r ← chooseMany c 8 (List.replicate 64 false) p
    let p ← add c [21, 44, 63, 30] r.2
    let q ← chooseMany c 4 ((List.range 64).map fun i => ![21, 44, 63, 30].contains i) p
    let p ← add c [10, 5, 6, 9] p
    let q' ← chooseMany c 4 ((List.range 64).map fun i => ![10, 5, 6, 9].contains i) p
    pure (q.1, q'.1))

/-- `update` and `order_new_seeds_and_update` (tests/test_seedspool.cpp:98-196) -/
example : cubeUpdates (fun c l p => p.update c l) =
    some ([some 63, some 44, some 30, some 21], [some 10, some 5, some 6, some 9]) := by decide +kernel
example : cubeUpdates (fun c l p => p.orderUpdate c Hash.id (NSet.ofList l)) =
    some ([some 63, some 44, some 30, some 21], [some 5, some 6, some 9, some 10]) := by decide +kernel
example : cubeUpdates (fun c l p => p.orderUpdate c Hash.rev (NSet.ofList l)) =
    some ([some 63, some 44, some 30, some 21], [some 5, some 6, some 9, some 10]) := by decide +kernel

/-- the mesh with a hole and two corners (tests/test_seedspool.cpp:266-402) -/
example : seedsOf holeCorners .boundary false = some [12, 13, 0, 3, 1, 2, 8, 9, 10, 11, 4, 7, 5, 6] := by decide +kernel
example : seedsOf holeCorners .boundary true = some [12, 13, 0, 3, 1, 2, 8, 9, 10, 11, 4, 7, 5, 6] := by decide +kernel
example : seedsOf holeCorners .neighbourhood false = some [12, 13, 0, 3, 1, 2, 4, 7, 5, 6, 8, 11, 9, 10] := by
  decide +kernel
example : seedsOf holeCorners .neighbourhood true = some [12, 0, 3, 13, 2, 1, 4, 7, 6, 5, 8, 11, 10, 9] := by
  decide +kernel

/-- the mesh with a hole (tests/test_seedspool.cpp:403-468) -/
example : seedsOf hole .boundary false = some [0, 1, 2, 3, 8, 9, 10, 11, 4, 5, 6, 7] := by decide +kernel
example : seedsOf hole .boundary true = some [0, 1, 3, 2, 8, 9, 10, 11, 4, 5, 7, 6] := by decide +kernel

end CoMMA.Tests
