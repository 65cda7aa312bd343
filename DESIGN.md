# Formal model of onera/CoMMA in Lean 4 — design

CoMMA is a header-only C++17 library: it takes the dual graph of a mesh in
compressed-row form and groups its cells into coarse cells (`fc_to_cc`).
The files under `include/CoMMA` and `src` are read as text; nothing is compiled
or run.  `properties.jsonl` lists the properties, `MANIFEST.json` says which
theorem settles which property, `seeded/LOG.jsonl` records the wrong programs the
theorems were tried against.

## 1. Shape of the model

* **Outcomes.**  Every modelled function that can fail lives in
  `M α = Except Err α`.  `Err` has one constructor for undefined behaviour
  (`ub`: vector access out of range, dereferencing past the end, `front()` of an
  empty deque, reading through an invalid pointer), one for a failed `assert`, one
  for each exception the code throws (`invalid_argument`, `range_error`,
  `out_of_range` from `.at`, `bad_optional_access` from `.value()`), and `fuel` for
  a loop that did not end within its bound.  A theorem that says the outcome is
  `ok` therefore rules out undefined behaviour, assertion failures, exceptions and
  non-termination at once.
* **Numbers.**  Indices, cardinalities and boundary counts are `Nat` (`Int` where the
  C++ value may be negative).  Signed overflow is treated in a second version of the
  call, `agglomerateBounded` (`Model/Overflow.lean`), which ends with undefined behaviour at
  the first signed value out of range and is shown to do the same as the first (C72).
  Unsigned indices do not wrap and casts are taken to be exact.  Floating-point values are an abstract type `W` with *uninterpreted*
  operations (`class Num W`: comparisons, `add`, `mul`, `div`, `sqrt`, the constants
  of the code).  No law is assumed unless a theorem states it, so IEEE arithmetic,
  including NaN aspect ratios, is an instance.  Theorems that need more say so:
  `LawfulLt W` (`<` is a strict total order), `CommAdd W` (sums do not depend on order or
  grouping), `ExactArith W`, `SymmArith W` (exact arithmetic for the features).
  `Model/Double.lean` is the instance the library is compiled with, binary64 with rounding to nearest
  (the two zeros are one value and there is no NaN; operations that would give one give zero or an infinity).
  For it `LawfulLt`, `SymmArith`, and the laws of rounded sums `RoundedAdd` and `GrowingAdd`
  are proved (`Lemmas/Double.lean`), and those of the other operations, `RoundedArith` (`Lemmas/DoubleArith.lean`) and `NoOverflow` (`Lemmas/DoubleRange.lean`); `CommAdd` and `ExactArith` are false for it, so theorems with these
  hypotheses speak of exact arithmetic only.
* **Unordered containers.**  A set or map is a canonical sorted list (`NSet`, `NMap`).
  Where the iteration order of an `unordered_set`/`unordered_map` can matter, the
  model asks an oracle `Hash` for it: any permutation of the contents, depending on the
  place in the code and on the contents.  Theorems quantify over the oracle, and C30
  and C51 show which results do not depend on it.
* **Ordered sets of pairs** (`std::set<pair, CustomPairGreaterFunctor>`) are lists with an
  insertion function that follows the comparator.
* **Loops** are structural folds, or recursion with explicit fuel whose exhaustion is the
  error `fuel`, excluded by the theorems.
* **State.**  Classes are records, methods are functions on them.  Output arguments
  passed by reference are a record `Outs` given before the call and returned after it,
  also when the call throws.

## 2. Layout

* `Verif/Model/*.lean` — the model; every definition cites file and lines.
* `Verif/Spec/*.lean` — small independent vocabulary used to state properties (valid
  mesh, walk, distance, connected set, partition, greedy run, …); no model function.
* `Verif/Lemmas/*.lean` — helper lemmas.
* `Verif/Props/*.lean` — the property theorems `Cnn_…`, each next to an `example` showing
  that a concrete non-trivial case meets its hypotheses.
* `Verif/Conformance/*.lean` — the repository's own unit tests (`/repo/tests`), evaluated in the model with
  doubles by the kernel.  These are tests of the model, not proofs of properties: they are evidence that
  the reading of the C++ source is right.  Every expectation copied from the tests agrees with the model.

The hypotheses that come back in most theorems are `ValidMesh a n` (row pointers and
neighbours form a symmetric graph, vectors have the right sizes, points have the
same dimension), `ValidParams P a` (the documented ranges of the parameters: dimension 2 or 3,
1 < min ≤ goal ≤ max, 1 ≤ fc_choice_iter ≤ 4, threshold > 0, known enumerators; priorities
not below the smallest positive number if the pool is initialised with one point),
`WithoutLines`, `BuildsLines`, `GivesLines` (the kinds of calls and what those with lines need),
`ValidMode` (one of the three, the lines being described by `TakesLines`), `UniqueRows` (no neighbour
listed twice) and `NoSelfLoop`.  All are decidable on concrete meshes and checked on the examples.

## 3. What is modelled, what is not

| file | modelled | not modelled |
|------|----------|--------------|
| `CoMMA.h` | both overloads of `agglomerate_one_level`: checks, clamping, choice of pool, both phases, export, final copy, values of the outputs when it throws | text on standard output and standard error |
| `Args.h` | the three structures, with the default values of their constructors | — |
| `Agglomerator.h` | constructor logic, `build_anisotropic_lines`, line pairing, pool update after lines, export; the isotropic loop, growth (`Biconnected`, `Iterative`), cutting at the best size | class hierarchy (a virtual call is a `match`); lines of levels other than the current one |
| `ARComputer.h` | features, their incremental updates, the ten aspect ratios | `std::reduce` may group sums in any way: an uninterpreted operation on lists, assumed to be the sum only where a theorem assumes exact arithmetic |
| `Coarse_Cell.h` | `Coarse_Cell`, local graph of `Coarse_Cell_Subgraph` | `_idx`, never read |
| `Coarse_Cell_Container.h` | creation, delayed creation, `correct`, both receiver selections, renumbering | the renumbering loop goes on with an iterator to a node extracted and inserted again: the model follows the next larger key |
| `Dual_Graph.h` | rows, `check_connectivity`, `DFS`, compactness, `Subgraph` and its edits, tagging, boundary weights, neighbourhoods | `BFS` (does not compile if instantiated), flag and marks of `Subgraph` |
| `Neighbourhood.h` | both classes with histories of additions | — |
| `Seeds_Pool.h` | both classes, both initialisations, all operations | — |
| `Util.h` | comparators, distances, directions, wall distance, filter, `build_coarse_graph` | `constexpr_power` is unfolded |
| `deprecated/*` | `Queue`, `Priority_Pair`, `Bimap`, `Tree` | `print` functions, `fill_value` |
| `src/CoMMA.cpp` | the function called from Python (C57) | conversions done by pybind11 |

Simplifications are repeated in the comment of the definition concerned.  The main ones:
unsigned indices do not wrap round; the hash order is a function of place and contents
(`Model/History.lean` has the call with an order of its own for each iteration over an unordered
container; the theorems `C30_…_history` show that it has the same outputs when weights are totally
ordered and correction only treats single cells, so that all theorems about such calls carry over;
for all thresholds `C30_…_one_order` show that one order, used all the time, gives the same outputs);
negative numbers of boundary faces cannot be expressed (except in `build_coarse_graph`, where
they are `Int`); `std::set` with a comparator that is not an order follows the linear search.

## 4. Trusted base

* Lean's kernel (4.33.0).
* The axioms `propext`, `Classical.choice`, `Quot.sound`; no theorem depends on any
  other one.  There is no `sorry`, no `native_decide`, no `bv_decide`, no axiom of ours.
  Concrete cases (examples, counterexamples) are evaluated by `decide` or `decide +kernel`.
* The reading of the C++ source into `Verif/Model`, and of the English properties into the
  statements in `Verif/Props` and `Verif/Spec`.

## 5. Properties

`P` proved as stated, `p` partly (see the note, and section 6 for the failures).

| id | | what is modelled and how it is proved |
|----|-|----------------------------------------|
| C01 | P | whole isotropic call; total correctness through the loop invariant `CInv` (container) and the pool invariant; fuel = number of cells |
| C02 | P | as C01, the indices created are `0..counter-1` and correction renumbers them |
| C03 | P | growth never exceeds `max_card`; correction excluded, as it may |
| C04 | P | a coarse cell below `min_card` was created when its component of free cells was exhausted |
| C05 | P | candidates are neighbours of the growing cell: walk built along the growth; kept by correction |
| C06 | P | invariant over all histories of pool calls |
| C07 | P | the chosen seed has the most boundary faces among the free cells, all runs of the boundary pool that start with `initialize`; at the level of the API, for all modes, from the description of C65 |
| C08 | P | queues sorted by priority then index: exact contents after initialisation, rebuild and ordered update |
| C09–C11 | P | `correct` with threshold 1: invariant over the list of singular cells |
| C12 | p | any threshold; false as stated.  Proved: never fails, large and line cells kept (no condition); the full claim if each small cell can be absorbed wholly or not at all |
| C13 | P | queue invariant of the breadth-first search, equality with shortest walks |
| C14 | p | exact set returned; the claim fails for cells left without edge |
| C15, C16, C18, C43, C46, C47, C58, C59 | P | `build_coarse_graph` and its iteration over levels: fold algebra, sorted maps, induction over levels; union of connected cells is connected; a level with as many coarse cells as cells contradicts C04/C09 |
| C17, C44, C45 | p | the code computes something else: exact value proved, claim proved where they agree, counterexamples |
| C19, C48–C51 | P | tagging and line building: invariant of the two-sided growth, measure = cells still to treat; exact greedy specification `GreedyLines` |
| C20, C22 | P | pairing loop and export, recursion on the line |
| C21 | p | limit on the cells taken; two overrun cases are counterexamples |
| C23, C24, C32, C57 | P | decision logic of the checks, clamp, wrappers |
| C61 | P | each operation of the pools against `SeedChosen`, `SeedsJoined`, `PoolStarted`, with uniqueness |
| C62 | p | level used when no seed waits: false as stated, exact level proved |
| C63 | P | ordered candidate lists against `Candidates`, invariant over additions, with uniqueness |
| C64 | P | existence from C42/C55, uniqueness of each part of the description (seed, search, candidates, growth, size, queues), induction over the run |
| C65 | P | existence: lines from C48 and C22, cutting (`Pairs`), pool after lines (`PoolAfterLines`), run as in C64, correction as in C39 and C56; uniqueness of each part; with any threshold, an order of iteration is built from the orders in the description: small coarse cells do not change before their turn, so that their sets of cells differ (`correctLoop_reach`) |
| C66 | P | both calls have the unique description of C65; each part of the description depends on priorities by comparisons only (`same_call`) |
| C67 | p | as C66, features related by equality except the sum of centers; false with the barycenter |
| C68 | P | as C66, features related by equality of the ones used by the type of aspect ratio |
| C69 | p | as C66, features and couplings related by the multiplications; comparisons are between ratios of coarse cells of the same size, so the relation may depend on the size (`RatiosAlike`); powers of two commute with rounding to any number of binary digits (`Spec/Rounding.lean`); false with the barycenter |
| C70 | p | as C65: the description of the result by `IsoTrace` and `CorrectionOf` is carried over by the renumbering, and it determines the result; with neighbourhood priority the invariant of C71 shows that the pool never changes level on a connected mesh; with lines (`C70_lines_partial`) the growth of the lines, their orientation and the pool left by them are carried over too; with any threshold (`C70_numbering_any_partial`, `C70_lines_any_partial`) `SmallCorrectionOf` is carried over and C56_some_order gives the order of iteration; in any arithmetic, rounded or not, the `C70_rounded` theorems carry over the greedy description of C65 if the faces of each cell are listed in the same order (each computation of features is then the same fold); false with neighbourhood priority on unconnected meshes, for ties of priority, and with lines if the neighbours are listed in another order or for ties in the growth of lines |
| C71 | P | invariant over the turns of `IsoTrace`: every free neighbour of a taken cell waits, at most at the level in use; correction moves only single cells, and these have no later neighbours |
| C72 | P | `agglomerateBounded` repeats the call with a check of every signed sum, product, difference and counter; bounds of each (faces of a set ≤ entries of the adjacency array, cells ≤ n, offsets of a compactness and a face count) carried along the invariants of growth and correction give equality with the unchecked call |
| C73 | partial | A valid mesh with sensible lines reaches `Start` as soon as no check fails, and then `Start.returns`; the unknown aspect ratio, checked late, is compared with the same call with a known one. False without these hypotheses: `C73_empty_mesh`, `C73_counterexamples` |
| C74 | P | Both calls pass the same checks and enter the isotropic phase in the same state: the reading of the vectors gives back the lines built (`givenLines_export`) |
| C75 | P | `isForward` of the reversed line is the negation (total order, exact equality, distinct ends), so each line is agglomerated as the same list |
| C76 | P | relation between two runs restricted to the part: same flags, same free cells waiting on each level (or the level not reached yet in one of them); coarse cells, lines and receivers of the part are determined by data of the part |
| C77 | p | maximum and sum as folds of an associative, commutative operation: folding in two steps or at once; neighbours from `C16`; induction over the levels |
| C78 | P | from C09 each coarse cell has two cells; sum of the counts; induction over the levels |
| C79 | P | binary64 as integers (`Model/Double.lean`), rounding shown to be to nearest; error of a left-to-right sum by induction, composition of sums over levels (`nearSum_trans`), the fibres of the maps partition the finest cells |
| C80 | P | laws of rounded arithmetic (`RoundedArith`, proved for doubles in `Lemmas/DoubleArith.lean`); the exact features are those of the same graph over ℚ (`Graph.exact`); calculus of errors `Near` (sums, differences, products, maxima), induction over the additions |
| C81 | P | C41 gives the greedy growth with any computer of aspect ratios (`greedy_by`); the invariant carried along is that the features are near (`NearFeats`, C80) and finite as long as the exact ones are modest (`FinFeats`, from `NoOverflow`, proved for doubles in `Lemmas/DoubleRange.lean`); quotients and products of near numbers are near (`near_mul`, `near_div`, `near_cubes`) |
| C82 | P | `Only m`: the failures `m` can have. One lemma per function of the model, without hypotheses on the input (`Lemmas/Only.lean`); each loop has a quantity that decreases on any input: cells outside the dictionary, distance of the two ends of the fronts, size missing, cells not agglomerated (`Sync`), cells to treat, cells left in the line. `C23_exactly` follows |
| C83 | P | `TurnsSpace D φ`: a map of points that respects the vector operations and the scalar product. Directions of steps are related by `φ` with the same cosines (`StepsAlike`, `Lemmas/Transfer.lean`), sums of moments and barycenters are images (`Lemmas/DataUse.lean`), so the two calls make the same choices. Orthogonal matrices over ℝ and reversals of axes for doubles are such maps. The coarse graph and the levels turn along (`Props/TurnLevels.lean`) |
| C84 | P | from the description of the growth of a line in C48 (`LinesFrom`): invariant that consecutive triples of cells have passed the test (`Triples`, `Lemmas/Straight.lean`), also across the seed where the two halves meet; over ℝ the computed number is the cosine, `cos 20°` bounded through the formula of the triple angle; for doubles the error of every operation is followed (`Lemmas/DoubleDir.lean`, with the square root of C79): the computed cosine is within `2^-35` of the cosine |
| C85 | P | the model's square root of doubles is the nearest double (`Lemmas/DoubleSqrt.lean`: integer square root with a sticky bit, midpoints of doubles are even multiples of the unit); the ratio of positive weights is at least one, so rounding it is monotone and has a small relative error; overflow gives infinity, which passes the test, and so does the exact ratio |
| C86 | P | from the strong couplings between consecutive cells (C48, C49): the computed squared distance is the square of the distance over ℝ, and within `2^-45` of it relatively for doubles; the division and the product with the double nearest to 0.9 are followed the same way |
| C87 | P | a single cell is next to no other single cell (C04), so it never joins a coarse cell that has just received one: the core is the coarse cell before correction, or, if that was a single cell itself, one of the cells; counting the neighbours of the core gives the bound, `exTwin` reaches it |
| C88 | P | from C04 and C05: the coarse cell of smallest index that meets the part lies in it, and either is smaller than `min_card` and has no neighbours of larger index or has as many cells as the part; correction does not move its cells (C10, C39) |
| C89 | p | `same_call_over` (`Lemmas/Transfer.lean`): two calls over different number types agree if the comparisons of aspect ratios, priorities and couplings agree. For whole-number data each aspect ratio is a monotone function (square root, cube root, quotient) of a quotient of two whole numbers that the double holds exactly; the quotients of different fractions with small terms differ by more than rounding does, equal ones are rounded alike (`Lemmas/Whole.lean`, `Lemmas/WholeRatios.lean`, `Lemmas/WholeLines.lean`). Couplings by distance stand for the whole squared distances (`Encoded`, `Lemmas/WholeDistances.lean`); cosines are computed within `2^-35`, so away from the limit the test on the direction is decided by whole numbers (`KeepsOn`), and has one candidate at most if no two neighbours are seen within 41 degrees (`ClearTurns`, `Cartesian.clear`, `Lemmas/WholeTurns.lean`) |
| C90 | P | induction over the levels: the finest cells of a cell are the finest cells of its parts (`length_finestOf_cons`), at most `max_card` of them by C03 and C40, at least two by C78 |
| C91, C92 | P | `IsGrid` (`Spec/Grid.lean`) says what a structured mesh is. Invariant of the pool of seeds (`PoolGrid`, `Lemmas/GridPool.lean`): the cells treated are whole blocks, and the next seed is at a corner of a block none of whose cells is treated, since more boundary faces (true or made of treated cells) are waiting there than anywhere else in the block. From a corner the growth (a greedy sequence that prefers faces in common, `GrownGreedily`) stays in the block: in the plane two cells of the block have to come before the fourth has two faces in common (`Lemmas/GridBlock.lean`), in space by running through all orders of the eight cells with any tie-break (`Lemmas/GridCube.lean`, checked by the kernel on eight indices, then carried over to any box). With two iterations (`Lemmas/GridCubeTwo.lean`) a cell out of the block can have as many faces as the best of the block, counting the look-ahead; it loses since its aspect ratio is its own, positive, while that of the cell of the block is replaced by zero. No cell is small, so correction does nothing. When `max_card` is larger than a block (`Lemmas/GridSides.lean`, `Lemmas/GridLarger.lean`) the growth goes on past the block, and the size is chosen by compactness, then by external faces minus cells: no set of cells of the grid is more compact than a block, and none of up to 8 cells in the plane or 166 in space has a smaller cost, since a set has two faces for each cell seen along each axis (in space: inequality of Loomis and Whitney) |
| C93 | P | induction over the levels: the coarse graph of the blocks is a grid with half the cells along each axis (C16), and the largest number of boundary faces in a block (C43) is the number of its sides on the border if there are two blocks along each axis |
| C94 | P | `FormChains` (`Spec/Chains.lean`): strong couplings are mutual and at most two. By C48 the lines are the ones grown by `LinesFrom`; a line grown in both directions is closed under strong couplings (`LineFrom.closed`), so the free cells stay a union of chains (`Lemmas/Chains.lean`) |
| C95 | P | C94 with the columns of a grid as chains (`Lemmas/Layers.lean`); a walk through a column without repetition is monotone (`steady`), so that either orientation of an even column is paired alike; coarse lines are kept by the correction (C69). `C95_weights` derives the strong couplings from the weights |
| C96 | P | one level halves each line (`CoarsensLines.halved`), read from one end or the other; stretches of the coarse line are stretches of twice as many cells (`Halved.stretches`, `Lemmas/LineLevels.lean`), a reversed line having the same stretches since its length is a multiple (`stretch_reverse`); induction over the levels with the exported lines (C46) |
| C97 | P | as C95 with the groups of a line of any length (`Pairing.count`, `groups_at` in `Props/LayersAny.lean`). Forced directions: `StraightChains` (`Spec/Chains.lean`) makes the growth by direction follow the chains (`FollowsDir`, `Lemmas/Chains.lean`, also for C94–C96); on Cartesian meshes with centers in doubles it follows from the rounding errors of computed cosines (C84) since these are near 0 or 1 (`Lemmas/LayersStraight.lean`) |
| C98 | P | `Stacked`, `StrongColumns`, `InLayers` (`Spec/Columns.lean`) say what boundary layers are, without a grid. The columns are the chains of strong couplings (`Lemmas/Columns.lean`), so the lines are the columns (C94 via `LinesFrom.chains`); pairs as in C97, several levels as in C96 (`Props/Columns.lean`). `strongColumns_of_weights` derives the condition from the weights. |
| C99 | P | `Pairing` holds the exact cutting `Pairs` of a line (also for a call), from which `takenCells` (`Spec/Columns.lean`) follows (`Pairs.total`, `Lemmas/TakenCells.lean`). The end of a column is told by `FrontFirst`, of which exactly one direction holds (`frontFirst_swap`), so the direction in which the line was grown does not matter (`Props/Walls.lean`). |
| C100 | P | `CutInto` (`Spec/LineCuts.lean`) gives the cut points of a line. One level pairs the cells of each line (`CoarsensLines.pairedUp`); the cut points of the coarse line, doubled, are those of the line, the last one being its end (`PairedUp.cut`), and a line read from its other end has the mirrored ones (`CutInto.reverse`). Stretches that are long enough and as many as possible are not too long (`cut_most`). Induction over the levels with the exported lines (C46); columns as in C98 (`Props/LineCuts.lean`). Without odd lines the last cell is left out at each level (`CutEvenly`, `PairedEvenly.cut`). |
| C101 | P | `takenCells` (C99) tells how many cells a level takes, `cellsLeft` (`Spec/LineParts.lean`) how many coarse cells remain after several. `CutPart` gives the cut points of part of a line; they are doubled from a level to the next finer one (`PairedFront.cut`) and mirrored if the line is read from its other end (`CutPart.reverse`, `Lemmas/LineParts.lean`). The first level is C99 (`column_oriented`), the others by induction with the exported lines (`Props/LineParts.lean`). |
| C102 | P | `SameTile` (`Spec/Tile.lean`) says that two cells are in the same block. As for C91, the cells treated are whole blocks and the next seed is at a corner of a block none of whose cells is treated (`Lemmas/TileGrid.lean`, `TilePool.lean`, `TileRun.lean`). The growth from a corner is followed by an invariant over any number of steps (`Quad`, `Shape`, `Lemmas/TileGrow.lean`): the cells taken fill p by q cells from the corner, q = p or p + 1, and r cells of the next row. So the whole block is the first b*b cells of the greedy sequence. `Lemmas/TileSize.lean` then compares the sizes allowed: j cells within r rows and c columns have at least 2(r + c) faces outside, so that fewer cells than the block cost more than the block, and one or two cells more do not cost less. |
| C103 | P | Induction on the levels, as for C93: the blocks of a grid form a grid (`IsGrid.tiles`), and the largest number of boundary faces of the cells of a block is the number of its sides on the boundary if there are at least two blocks along each axis (`sidesOut_tiles`, `Props/TileLevels.lean`). |
| C104 | P | From the description of each coarse cell (C41): all its cells are among those found by the search around the seed (`GrownCell.known`, `Props/Reach.lean`), whose distances are exact (C28). |
| C105 | P | As for C102 with one axis (`tiles_of_growth`, `Props/Tiles.lean`): the next seed is at an end of a group none of whose cells is treated, with the cell before it treated or none there. Induction on the greedy sequence: the j cells taken are among the first j from that end (`row_seq`), so the first max_card ones are the group. Any number of cells has at least two faces outside, the group has two, so that the largest size costs least (`grown_row`, `Lemmas/TileRow.lean`). |
| C106 | P | `rowGroup` (`Spec/RowGroups.lean`) gives the groups. Invariant of the pool (`PoolRow`, `Lemmas/RowRun.lean`): the free cells are consecutive, and those that wait are at one of their ends; with boundary priority, cells that do not wait are only used while an end of the row is free. The coarse cell grown from an end has the next max_card cells, or all that are left (`Row.grown`, `Lemmas/RowGrow.lean`). So the number of cells taken at each end stays a multiple of max_card until fewer are left (`Row.trace`). |
| C107 | P | Induction over the levels, C106 at each of them: the groups of a row form a row (`IsGrid.cut` in `Props/RowChain.lean`, from C16), and its boundary faces are those of a row if at least two groups are left (`sidesOut_cut`, from C43); those of a single cell play no part. Arithmetic of the groups in `Lemmas/RowLevels.lean`. |
| C108 | P | C56 applied to C106: the only small coarse cell is the cell left, its receivers are the groups next to it, and joining it to either of them gives groups of the same kind (`rowGroup_before`, `rowGroup_after`, `Props/RowsCorrected.lean`). |
| C109 | P | The induction over levels of C107 (`cut_levels`), with C106 at the levels that leave no single cell and C108 at those that do; a row of one cell by C01 and C02. Each level makes at most one group of `max_card` + 1 cells, which gives the bound `reach` (`Spec/RowGroups.lean`). |
| C60 | P | equality of two whole calls, phase by phase |
| C25 | P | order axioms of the comparators from those of `<` |
| C26, C27 | P | invariants over histories of additions |
| C28 | P | layer invariant = distance |
| C29 | P | invariant of the incremental compactness |
| C30 | P | equality of the whole call for any two oracles |
| C31, C54, C55 | P | incremental features = features of the set, by induction over the additions; hence the ratio is a function of the set and growth compares shapes |
| C33 | p | one-point initialisation; fails for priorities below the smallest positive number |
| C34 | P | exact set tagged, flags and reference weights, also with `preserving` |
| C35 | p | exact answer for every history of searches and checks; right answer on a new graph with an edge |
| C36 | p | insertion and removal are wrong for every node with a neighbour (proved for all graphs) |
| C37 | p | refinement of each container to a list or a finite map |
| C38, C41, C42 | P/p | the scan returns the first best candidate; the cut minimises the cost of the code; a call is a sequence of turns described by `IsoTrace`, independent of the model's helpers |
| C39, C56 | P | exact description of correction: threshold 1, any threshold |
| C40 | P | anisotropic phase composed with the isotropic one |
| C52, C53 | P/p | local graph is the induced graph; the flag `is_connected` is wrong for single cells |

## 6. Where the code does not do what one expects

Each item is a theorem with a concrete witness unless marked (note).

* **C12** With a threshold of two or more: `C12_counterexample` the returned indices have a
  gap, since a coarse cell of which one fine cell is absorbed is removed and the others
  keep its index; `C12_collision` this index may also be given to another coarse cell by the
  renumbering, so a coarse cell in two unconnected parts is returned; `C12_split` a small
  coarse cell may be split between receivers; `C30_counterexample` the result
  depends on the iteration order of an unordered set.
* **C14** `C14_counterexample` cells left with no edge pass the filter.
* **C17** `C17_counterexample` edge weights are read at the index of the neighbouring cell instead
  of the position of the edge; `C17_out_of_bounds` this may be past the end.
* **C18** `C18_threshold_counterexample` after a call with threshold 2 the coarse graph may have a coarse cell without
  cells: no neighbours, volume zero, `INT_MIN` boundary faces (`C18_gap`: so for every map with a gap).
* **C21** `C21_counterexample_limit` an even limit m, odd lengths allowed and a line of m+1 cells give
  m+1 cells; `C21_counterexample_overrun` an odd limit m ≥ 3 and a line of m−1 cells run past the end.
  (note) A limit of 1 exports empty lines.
* **C23** `C23_unknown_aspect_late` an unknown aspect ratio is refused after the lines have been
  overwritten.
* **C33** `C33_counterexample` one-point initialisation queues a cell that does not exist if all
  priorities are below the smallest positive number.
* **C35** `C35_no_edges` the check reads the first neighbour of a graph without edges;
  `C35_stale_marks` marks are never reset.
* **C36** `C36_insert_never`, `C36_remove_ub`.
* **C37** `C37_bimap_reuse`, `C37_bimap_dangling`, `C37_tree_only_son`.
* **C41** `C41_counterexample` the cost minimised is the number of external faces minus the number
  of cells.
* **C44** `C44_counterexample` the maximum starts at the smallest positive number.
* **C45** `C45_counterexample` centers are divided by the number of cells, not by the volume.
* **C57** `C57_nbh_other` from Python any integer other than 0 and 1 is silently taken as the pure front,
  not as the default neighbourhood.
* **C62** `C62_pool`, `C62_call` with neighbourhood priority, once interior cells have been used as
  seeds, a part of the mesh not reached yet is started from its cell of lowest index, not from its corners.
* **C67** `C67_move_counterexample` the barycenter used by two types of aspect ratio is the sum of the centers weighted
  by the volumes, divided by the number of cells: unless volumes are one, the result depends on where the origin is.
* **C69** `C69_units_counterexample` for the same reason, with these two types the result depends on the unit of volume.
* **C70** `C70_neighbourhood_counterexample` with neighbourhood priority on an unconnected mesh the result depends on the numbering of the cells although all priorities are different: when no cell waits, the pool goes to the level of the lowest-numbered free cell whose number of boundary faces reaches the current level, not to that of the cell with most boundary faces or best priority. `C70_ties_counterexample` cells of equal priority are taken in the order of their numbers. `C70_rows_counterexample` with lines the result depends on the order in which the neighbours of a cell are listed, also with boundary priority and distinct priorities: the free cells next to the lines wait in the order in which they are met, whatever their priorities. `C70_line_ties_counterexample` of two neighbours equally coupled with the end of a line the one with the lower number is taken, whatever the priorities. `C70_threshold_counterexample` with a threshold above 1 the cells of a small coarse cell are given away in the order of an unordered container of their numbers. `C70_rounding_counterexample` in double precision the result depends on the order in which the neighbours of a cell are listed, even without lines and with distinct priorities: 0.1 + 0.2 + 0.3 and 0.3 + 0.2 + 0.1 differ in the last bit, which decides between two candidates.
* **C76** `C76_neighbourhood_counterexample` with neighbourhood priority the coarse cells of a part of the mesh depend on another part that has no
  face in common with it. `C76_one_point_counterexample` with one-point initialisation one more cell without faces changes the coarse cells of the others.
* **C80** `C80_cancellation` the external weight of a coarse cell is updated by differences; in double precision it may come out negative
  although no weight is (weights 1, 2^-54 and 2^-55 in a row).
* **C83** `C83_exchange_counterexample` in double precision exchanging two axes of a mesh in space may change the coarse cells (order of additions).
* **C78** `C78_counterexamples` without correction, or with lines, more than half of the cells may be left.
* **C77** `C77_centers_counterexample`, `C77_weights_counterexample` centers and weights of faces of a coarse graph depend on the levels in between, a
  consequence of the findings of C17 and C45.
* **C53** `C53_singleton`, `C53_disconnected`.
* **C73** `C73_empty_mesh` a mesh without cells reads the maximum of an empty range. `C73_counterexamples` neither the sizes of the
  vectors, nor the offsets, nor the indices are checked: a priority or boundary vector that is too short, a neighbour, line cell or
  compliant cell that does not exist, decreasing offsets of the graph or of the lines (unsigned subtraction), a negative anisotropy
  threshold with an isolated compliant cell are undefined behaviour; two lines that share a cell fail an assertion (nothing in a
  release build).
* **C89** `C89_barycenter_counterexample` the barycenter of three cells with whole-number centers has thirds for coordinates; aspect ratios
  that are equal are then not equal in double precision, and on five cells that are all neighbours another partition is
  returned than exact arithmetic gives. `C89_distance_counterexample` squared distances 9 and 10: the couplings are in the ratio 0.9 of
  the threshold exactly, not strong; in double precision it is strong and the line has one cell more.
  `C89_direction_counterexample` two neighbours straight on, bent by the same angle to either side: the cell of lower index goes on
  the line; in double precision one cosine is an ulp larger and the other cell does.
* **C91** `C91_thin_counterexample` a structured mesh that is one cell thick in space (a plane case run in 3D) has two more boundary faces
  per cell; since only the first three count, corners cannot be told from other cells of the border, and a seed in the middle of a
  side makes coarse cells that are not the blocks. With the faces across the two axes only, the blocks are found in 3D too (`C91_blocks`).
* **C91** `C91_nine_counterexample`, `C91_two_counterexample` a mesh of 4 x 4 cells is not coarsened into blocks with `goal_card` = 4 and
  `max_card` = 9 (a cell of 3 x 3 is made, and one of a single cell is left), nor with `max_card` = 5 and two iterations.
* **C102** `C102_twelve_counterexample`, `C102_goal_counterexample`, `C102_front_counterexample` a mesh of 6 x 3 cells is not coarsened into
  the blocks of 3 x 3 cells with `max_card` 12, with `max_card` 11 and `goal_card` 8, nor with the pure front neighbourhood.
* **C105** `C105_sides_counterexample` six cells in a row in the plane, with the sides along the row as boundary faces and `max_card` 3, are
  coarsened into pairs: each further cell adds two faces outside, so the smallest size costs least.
* **C106** `C106_left_counterexample` six cells in a row with `max_card` 5 and correction: the cell left is added to the other five, so that a
  coarse cell has more than `max_card` cells.
* **C108** `C108_two_counterexample` seven cells in a row with `max_card` 5, `min_card` 4 and threshold 3: of the two cells left one joins the
  group of five, the other one stays as a coarse cell of a single cell, which correction is meant to avoid.
* **C92** `C92_front_counterexample`, `C92_iterations_counterexample` a structured mesh of 4 x 2 x 2 cells is not coarsened into blocks with the
  pure front neighbourhood, nor with four iterations. `C92_positive_counterexample` nor with two iterations when all the weights are zero (external
  weight as aspect ratio).
* (note) `preserving = 3` of the tagging falls through to the default.
* (note) In `Agglomerator_Iterative` the aspect ratio of the look-ahead is never assigned, it stays 0.
* (note) Dead branches at the end of `select_best_cc_to_agglomerate` and in the neighbourhood search.
* (note) The message "switching off anisotropy" for an empty list of compliant cells does not switch it off.
* (note) The renumbering loop of `correct` increments an iterator to a node extracted and put back. The standard calls it
  invalid; implementations go on with the next key, and so does the model.

## 7. Wrong programs

`seeded/LOG.jsonl` has one line per edit of a model definition: the edit, the claim it breaks, the
theorems that failed to build, those that were tightened because the edit went unnoticed.
Edits that leave every claim true (the definition is equivalent, or the branch is dead) are logged
with a note.
