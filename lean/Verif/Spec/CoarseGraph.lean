import Verif.Spec.TopLevel
import Verif.Model.CoarseGraph
/-! # Vocabulary for the coarse graph -/

namespace CoMMA

variable {W : Type} [Num W]

/-- the fine cells of the coarse cell `k`, in increasing order -/
def cellsOf (f2c : List Nat) (k : Nat) : List Nat :=
  (List.range f2c.length).filter (fun i => decide (f2c[i]? = some k))

/-- sum, from left to right -/
def sumW (l : List W) : W := l.foldl Num.add (Num.ofNat 0)

/-- the entries of `v` at the given positions -/
def entriesAt {α : Type} (v : List α) (l : List Nat) : List α := l.filterMap (fun i => v[i]?)

/-- the positions of row `i` in a compressed vector -/
def positions (adjIdx : List Nat) (i : Nat) : List Nat :=
  match adjIdx[i]?, adjIdx[i + 1]? with
  | some b, some e => List.range' b (e - b)
  | _, _ => []

/-- the positions, in the fine graph, of the edges from coarse cell `k` to coarse cell `l` -/
def crossings (adjIdx adj f2c : List Nat) (k l : Nat) : List Nat :=
  (cellsOf f2c k).flatMap (fun i => (positions adjIdx i).filter (fun p =>
    decide ((adj[p]?).bind (fun j => f2c[j]?) = some l)))

/-- Valid input of `build_coarse_graph` with `n` fine cells.  Each neighbour must also be an
index of the weights (see C17). -/
structure ValidData (g : MeshData W) (n : Nat) : Prop where
  pos : 0 < n
  crs : ValidCRS n g.adjIdx g.adj
  volumes : g.volumes.length = n
  centers : g.centers.length = n
  priority : g.priority.length = n
  nBnd : g.nBnd.length = n
  coords : ∃ D, ∀ c ∈ g.centers, c.length = D
  cover : ∀ j ∈ g.adj, j < g.weights.length

/-- laws of addition: exact arithmetic, not floating-point -/
structure CommAdd (W : Type) [Num W] : Prop where
  comm : ∀ a b : W, Num.add a b = Num.add b a
  assoc : ∀ a b c : W, Num.add (Num.add a b) c = Num.add a (Num.add b c)
  zero : ∀ a : W, Num.add (Num.ofNat 0) a = a

/-- `N` is the number of coarse cells: one more than the largest index in use -/
def CoarseCount (f2c : List Nat) (N : Nat) : Prop := (∀ k ∈ f2c, k < N) ∧ N - 1 ∈ f2c

/-- every cell can be reached from every cell -/
def ConnectedMesh (n : Nat) (adjIdx adj : List Nat) : Prop :=
  ∀ i j, i < n → j < n → ∃ k, Walk (Adj adjIdx adj) k i j

/-- A connected valid mesh with `n` cells: symmetric graph in compressed row storage, vectors
of the right sizes, boundary counts not negative. -/
structure GoodMesh (g : MeshData W) (n : Nat) : Prop where
  pos : 0 < n
  crs : ValidCRS n g.adjIdx g.adj
  sym : SymmetricCRS g.adjIdx g.adj
  uniq : UniqueRows g.adjIdx g.adj ∨ LawfulLt W
  connected : ConnectedMesh n g.adjIdx g.adj
  weights : g.weights.length = g.adj.length
  volumes : g.volumes.length = n
  centers : g.centers.length = n
  priority : g.priority.length = n
  nBnd : g.nBnd.length = n
  bndPos : ∀ b ∈ g.nBnd, 0 ≤ b
  coords : ∃ D, ∀ c ∈ g.centers, c.length = D

/-- no priority is below the smallest positive number -/
def PrioritiesAbove (g : MeshData W) : Prop := ∀ w ∈ g.priority, Num.lt w Num.lmin = false

/-- the arguments of a call of `agglomerate_one_level` on the mesh `g` -/
def Args.onMesh (a : Args W) (g : MeshData W) : Args W :=
  { a with rowPtr := g.adjIdx, colInd := g.adj, values := g.weights, volumes := g.volumes, centers := g.centers,
           prio := g.priority, nBnd := g.nBnd.map Int.toNat }

/-- Several levels, as a caller of the library builds them: at each level agglomerate, then
build the coarse graph, which is the mesh of the next level.  The settings of a level are
chosen from its mesh and from the lines exported by the previous level.  Returns the map
of each level and the coarsest mesh. -/
def runLevels (P : Platform) (intMin : Int) : List (MeshData W → Outs → Args W) → MeshData W → Outs →
    M (List (List Nat) × MeshData W)
  | [], g, _ => .ok ([], g)
  | s :: r, g, o =>
    match agglomerateOneLevel P ((s g o).onMesh g) o with
    | (out, .ok ()) =>
      match buildCoarseGraph intMin out.fcToCc g with
      | .ok g' =>
        match runLevels P intMin r g' out with
        | .ok (ms, gN) => .ok (out.fcToCc :: ms, gN)
        | .error e => .error e
      | .error e => .error e
    | (_, .error e) => .error e

/-- the vectors `o` hold the lines `ls` (none if they are empty), disjoint paths of the mesh -/
structure LinesOn (g : MeshData W) (n : Nat) (o : Outs) (ls : List (List Nat)) : Prop where
  enc : Encodes o.linesIdx o.lines ls ∨ (o.linesIdx = [] ∧ o.lines = [] ∧ ls = [])
  disjoint : ls.flatten.Nodup
  range : ∀ x ∈ ls.flatten, x < n
  paths : ∀ l ∈ ls, IsPath g.adjIdx g.adj l

/-- All calls of a hierarchy return normally and `Q` holds of the mesh and of the vectors of
each level. -/
def EveryLevel (P : Platform) (intMin : Int) (Q : MeshData W → Outs → Prop) :
    List (MeshData W → Outs → Args W) → MeshData W → Outs → Prop
  | [], g, o => Q g o
  | s :: r, g, o => Q g o ∧ ∃ out g', agglomerateOneLevel P ((s g o).onMesh g) o = (out, .ok ()) ∧
      buildCoarseGraph intMin out.fcToCc g = .ok g' ∧ EveryLevel P intMin Q r g' out

/-- the coarsest cell of a finest cell -/
def composeMaps : List (List Nat) → Nat → Option Nat
  | [], i => some i
  | m :: r, i => (m[i]?).bind (composeMaps r)

end CoMMA
