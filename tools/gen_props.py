# Generates /verif/properties.jsonl (kept as a script so that the list stays readable).
import json
P=[]
def p(id,title,statement,quantifier,why,anchors):
    P.append(dict(id=id,title=title,statement=statement,quantifier=quantifier,why_tests_cant=why,anchors=anchors))
A="include/CoMMA/Agglomerator.h"; C="include/CoMMA/CoMMA.h"; D="include/CoMMA/Dual_Graph.h"; CC="include/CoMMA/Coarse_Cell_Container.h"; U="include/CoMMA/Util.h"; S="include/CoMMA/Seeds_Pool.h"; N="include/CoMMA/Neighbourhood.h"; AR="include/CoMMA/ARComputer.h"; G="include/CoMMA/Args.h"; X="include/CoMMA/deprecated/"
p("C01","Every fine cell gets exactly one coarse cell","For every valid mesh graph and every accepted parameter set (isotropic run, threshold-1 correction on or off), agglomerate_one_level terminates without exception and without undefined behaviour, and fc_to_cc has exactly one entry per fine cell.","all well-formed symmetric CRS graphs of any size, all accepted cardinalities, all seed-ordering types, both neighbourhood types, all fc_choice_iter, all aspect-ratio values (even NaN), all hash iteration orders; with one-point initialisation, priorities not below the smallest positive number (see C33)","The main loop is data dependent (seed queues, layered neighbourhoods, candidate choice); tests run a dozen fixed meshes, the claim ranges over every graph and parameter.",[C+":agglomerate_one_level",A+":Agglomerator_Isotropic::agglomerate_one_level",A+":choose_optimal_cc_and_update_seeds_pool",CC+":create_cc"])
p("C02","Coarse indices are contiguous and non-empty","The values in fc_to_cc are exactly 0..n-1 for some n: every index below the largest one is the index of at least one fine cell.","all valid inputs as in C01, with and without correction at threshold 1","Gaps only appear for particular interleavings of creation and removal of coarse cells.",[CC+":create_cc",CC+":correct",C+":agglomerate_one_level"])
p("C03","Coarse cells never exceed max_card","Without correction every isotropic coarse cell has at most max_card fine cells, also in calls with lines.","all valid inputs as in C01 without correction","Depends on the growth loop for every neighbourhood shape and size.",[A+":choose_optimal_cc_and_update_seeds_pool"])
p("C04","Small coarse cells only when nothing was left to take","Without correction, an isotropic coarse cell with fewer than min_card fine cells has no neighbouring fine cell in a coarse cell created later: each fine cell adjacent to it lies in a coarse cell with a smaller index.","all valid inputs as in C01 without correction","Needs the layered search to be exhaustive for every graph; tests only see meshes where it is.",[A+":choose_optimal_cc_and_update_seeds_pool",D+":compute_neighbourhood_of_cc"])
p("C05","Isotropic coarse cells are connected","Without correction, the fine cells of every isotropic coarse cell induce a connected subgraph of the dual graph.","all valid inputs as in C01 without correction","Connectivity is preserved step by step by the candidate choice; it must hold whatever the aspect-ratio values are.",[A+":compute_best_fc_to_add",N+":update_it"])
p("C06","Seeds pool never runs dry early","choose_new_seed returns a not-yet-agglomerated cell whenever one exists, and never returns an agglomerated one, after any sequence of initialisations, updates and earlier choices.","all histories of pool operations, both pool types, all agglomeration-status vectors","The queues contain stale and duplicate entries; the claim is about every interleaving of updates and choices.",[S+":choose_new_seed",S+":update",S+":order_new_seeds_and_update",S+":initialize"])
p("C07","Boundary priority is respected","With a boundary-priority seeds pool, every chosen seed has the largest (clamped) number of boundary faces among the cells that are not agglomerated yet. Hence, with a boundary-priority order and no correction, in any mode (no lines, lines built or given), each returned coarse cell not made from a line contains a fine cell with at least as many boundary faces as every fine cell of that coarse cell and of the coarse cells with larger indices.","all histories of pool operations as produced by agglomeration; all valid calls (graphs without repeated neighbours and self loops)","Depends on the top-queue bookkeeping staying an upper bound through every update.",[S+":Seeds_Pool_Boundary_Priority"])
p("C08","Seeds are queued by priority then index","Filling a queue (initialisation, rebuild, or ordered update) appends exactly the eligible cells, each once, by decreasing priority weight and increasing index among equal weights.","all weight vectors (without NaN), all cell sets, all hash iteration orders","Sortedness and completeness for every weight vector, including ties.",[S+":SPFullInitializator",S+":build_queue",S+":order_new_seeds_and_update",U+":CustomPairGreaterFunctor"])
p("C09","Correction removes every removable singleton","After agglomeration with correction (threshold 1) a coarse cell made of one isotropic fine cell remains only if that cell has no neighbour in any other isotropic coarse cell.","all partitions into coarse cells, all graphs","The receivers of earlier corrections change the outcome of later ones.",[CC+":correct",CC+":select_best_cc_to_agglomerate"])
p("C10","Correction only merges cells","Correction (threshold 1) never separates two fine cells of the same coarse cell, merges a singleton only with a coarse cell it has a common face with, keeps every coarse cell connected, and keeps indices contiguous.","all partitions and graphs, all orders of singular cells","Involves in-place renumbering after any set of removals.",[CC+":correct"])
p("C11","Correction leaves anisotropic coarse cells alone","Correction neither adds nor removes fine cells of an anisotropic coarse cell, and does not change its index, so exported lines keep denoting the same coarse cells.","all containers in which anisotropic cells were created first, threshold 1","Renumbering happens after the lines were exported.",[CC+":correct",C+":agglomerate_one_level"])
p("C12","Correction with a threshold above one keeps a partition","With singular_card_thresh > 1 the corrected fc_to_cc is still a coarsening of the uncorrected one with contiguous non-empty indices.","all partitions and graphs, all thresholds","Only fails when a too small cell can be absorbed only in part.",[CC+":correct",CC+":select_best_cc_to_agglomerate_whole"])
p("C13","Wall distance is graph distance","compute_neighbourhood_based_wall_distance returns, for each cell, the length of a shortest path in the graph to the wall, and -1 exactly for cells from which the wall cannot be reached (everything if the wall is empty).","all CRS graphs, all wall lists (with repetitions)","Shortest-path optimality over all graphs.",[U+":compute_neighbourhood_based_wall_distance"])
p("C14","Cell filter returns exactly the matching cells","filter_cells_by_n_edges returns, in increasing order and once each, exactly the cells whose number of edges (neighbours plus boundary faces) is an allowed positive value.","all graphs, all boundary counts, all allowed sets","The result depends on the sign pattern of the allowed set as a whole.",[U+":filter_cells_by_n_edges"])
p("C15","Coarse graph conserves volume","build_coarse_graph gives each coarse cell the sum of the volumes of its fine cells, so the total volume is conserved.","all fine graphs whose largest neighbour index is below the number of entries of the graph (so every graph without isolated cells; see C17 for the others), all fine-to-coarse maps","Sum identity over all maps.",[U+":build_coarse_graph"])
p("C16","Coarse graph adjacency is exact","In the graph built by build_coarse_graph two distinct coarse cells are neighbours exactly when some fine cell of one has a neighbour in the other; rows are strictly increasing, contain no self reference, and the offsets are consistent.","all fine graphs whose largest neighbour index is below the number of entries of the graph (so every graph without isolated cells; see C17 for the others), all fine-to-coarse maps","Exactness for every map.",[U+":build_coarse_graph"])
p("C17","Coarse edge weight is the sum of the crossing fine edges","For every valid graph the coarse graph is built without undefined behaviour and each coarse edge carries the total weight of the fine edges between the two coarse cells.","all fine graphs, weights and maps","The test meshes have uniform weights, which hides which weight entry is read.",[U+":build_coarse_graph"])
p("C18","Multi-level agglomeration stays well formed","The coarse graph of a valid (symmetric, well-formed, connected) graph under the map returned by agglomerate_one_level is again a valid input, so agglomeration can be repeated for any number of levels and the composed maps still assign every finest cell to exactly one coarsest cell.","all connected valid meshes, all numbers of levels, settings that may change from level to level, isotropic and anisotropic levels","Induction over levels.",[U+":build_coarse_graph",C+":agglomerate_one_level"])
p("C19","Anisotropic lines are disjoint paths of tagged cells","Lines built by the anisotropic agglomerator have at least two cells, share no cell, contain only tagged cells, and consecutive cells are neighbours; the construction terminates.","all graphs, weights, thresholds, couplings, direction settings","Greedy two-sided growth with data-dependent stopping.",[A+":build_anisotropic_lines"])
p("C20","Cells on a line are paired consecutively","Agglomerating a line cuts a prefix of it (from the chosen end) into consecutive groups of two cells, the last group possibly of three if odd lengths are allowed; every other cell of the line is left to the isotropic phase; with odd lengths allowed and no limit all cells of the line are used.","all sets of disjoint lines of length at least two, both odd settings, all limits outside the overrun case of C21","Boundary cases depend on parity of length and of the limit.",[A+":Agglomerator_Anisotropic::agglomerate_one_level"])
p("C21","max_cells_in_line bounds the cells taken from a line","No more than max_cells_in_line fine cells of a line are agglomerated anisotropically, and no access past the end of the line takes place.","all lines, all limits","Off-by-one behaviour for particular (length, limit, parity) combinations.",[A+":Agglomerator_Anisotropic::agglomerate_one_level"])
p("C22","Line export is a faithful CSR encoding","The exported (index, lines) arrays decode to the coarse lines in order: offsets start at 0, are non-decreasing, end at the size of the data, and slice k is line k. Feeding them back as input lines reproduces the lines with at least two cells.","all lists of lines","Round trip for all lists, including empty lines.",[A+":export_anisotropic_lines",A+":Agglomerator_Anisotropic::Agglomerator_Anisotropic"])
p("C23","Bad arguments are rejected before any output changes","agglomerate_one_level throws invalid_argument exactly when the dimension is not 2 or 3, a cardinality is at most 1, the cardinalities are out of order, fc_choice_iter is outside 1..4, the CRS sizes do not match, provided lines do not match their offsets, the singular threshold is not positive, or the seed-ordering type is unknown; in these cases the output arguments keep their values. (An unknown aspect ratio is refused too, but later: then only fc_to_cc is sure to keep its value.)","all argument combinations","Decision table over unbounded argument domains.",[C+":agglomerate_one_level"])
p("C24","Boundary-face counts are clamped to the dimension","The agglomeration behaves exactly as if every boundary-face count above the dimension were equal to the dimension.","all boundary-face vectors","Equality of whole runs.",[C+":agglomerate_one_level"])
p("C25","Pair comparators are strict total orders","CustomPairLessFunctor and CustomPairGreaterFunctor are strict total orders on pairs (second component first, then first component) when weights are totally ordered; sets built with them hold each pair once.","all pairs over ordered components","std::set requires a strict weak order for every triple.",[U+":CustomPairLessFunctor",U+":CustomPairGreaterFunctor"])
p("C26","Extended neighbourhood offers exactly the front","After any sequence of additions to a coarse cell, the candidates of the extended neighbourhood are exactly the allowed cells adjacent to the coarse cell and not in it, each once.","all sequences of additions, all graphs, all allowed sets","Invariant over histories.",[N+":Neighbourhood_Extended::update_it"])
p("C27","Pure-front neighbourhood offers a non-empty part of the front","After any sequence of additions the pure-front candidates are distinct allowed cells adjacent to the coarse cell and not in it, and there is at least one whenever such a cell exists; the search over stored fronts never leaves the stored range.","all sequences of additions, all graphs, all allowed sets","The alternation front/back over stored sets must stay in range for every history.",[N+":Neighbourhood_Pure_Front::update_it"])
p("C28","Neighbourhood order is breadth-first distance","compute_neighbourhood_of_cc maps exactly the non-agglomerated cells within the reached order to their breadth-first distance from the seed through non-agglomerated cells; if it returns fewer than max_card-1 cells it returns all reachable ones.","all graphs, seeds, agglomeration status, orders","Shortest-path statement over all graphs.",[D+":compute_neighbourhood_of_cc"])
p("C29","Compactness is the minimum internal degree","The compactness stored for each isotropic coarse cell equals the minimum over its fine cells of the number of neighbours inside the cell (0 for a single cell), in any mode; for a coarse cell made from a line it is 1.","all valid inputs without repeated neighbours and self loops","Computed incrementally during growth.",[A+":choose_optimal_cc_and_update_seeds_pool",D+":compute_min_fc_compactness_inside_a_cc"])
p("C30","Result does not depend on hash iteration order","A call of agglomerate_one_level, isotropic or anisotropic, without correction or with a correction of single cells, gives the same outputs whatever the iteration order of the unordered containers, which may change from one iteration to the next (with larger thresholds the correction does depend on it).","all iteration orders, meshes with totally ordered weights, accepted parameters","Iteration order is fixed per standard library, tests see only one.",[A+":choose_optimal_cc_and_update_seeds_pool",S+":order_new_seeds_and_update",D+":compute_neighbourhood_of_cc"])
p("C31","Incremental cell features are exact","The features kept while a coarse cell grows are those of its set of fine cells, whatever the insertion order: total volume, number of internal faces, and, as far as the chosen aspect ratio uses them, internal and external weight, largest and smallest squared distance of two centers, sum of the centers multiplied by the volumes, number of free faces of each cell.","all symmetric graphs with the same weight on both sides of a face, all volumes, centers and insertion sequences, exact arithmetic for the weights","Incremental = from scratch for all sequences.",[AR+":CellFeatures",AR+":update_basic_features",AR+":compute_and_update_barycenter"])
p("C32","Structured call equals positional call","The overload taking argument structures behaves exactly as the positional one with the corresponding fields; fields and parameters left out have the documented default values, in both.","all argument structures","Swapped arguments of equal type cannot be seen by the compiler.",[C+":agglomerate_one_level",G])
p("C33","One-point initialisation picks the best boundary cell","One-point initialisation queues the cell with the highest priority (lowest index among ties) among those with the most boundary faces.","all weight vectors and boundary counts","Depends on the sign of the weights.",[S+":SPOnePointInitializator"])
p("C34","Tagging is exact","A cell is tagged anisotropic exactly when it is compliant and either the threshold is negative or its aspect ratio reaches the threshold (and, with a non-negative threshold and the option preserving 2D layers, it has the faces of a quadrilateral); tagged cells are listed once, by decreasing priority, then increasing index.","all graphs, weights, thresholds","Exactness over all weights.",[D+":tag_anisotropic_cells"])
p("C35","Connectivity check decides connectivity","Graph::check_connectivity returns true exactly when the graph is connected.","all graphs and call histories","Stale state between calls.",[D+":check_connectivity",D+":DFS"])
p("C36","Subgraph edits keep a valid graph","Subgraph::insert_node and remove_node keep the local CRS consistent with the mapping and the full graph.","all edit sequences","Index shifting over all positions.",[D+":Subgraph::insert_node",D+":Subgraph::remove_node"])
p("C37","Deprecated containers behave as advertised","Queue is first-in first-out, Priority_Pair is a strict order, Bimap lookups are mutually inverse after insertions, renamings and deletions, the counters of a Tree are right.","all operation sequences","Histories.",[X+"Queue.h",X+"Priority_Pair.h",X+"Bimap.h",X+"Tree.h"])
p("C38","Growth picks the best candidate","The cell added next shares the maximal number of faces with the coarse cell among the candidates, and among those with as many faces has the smallest neighbourhood order, and among those the smallest aspect ratio.","all candidate lists and aspect ratios","Argmax over all lists with ties.",[A+":Agglomerator_Biconnected::compute_best_fc_to_add"])
p("C39","Correction treats single cells one by one, best receiver first","With threshold 1, the corrected fc_to_cc comes from the uncorrected one by treating the coarse cells with a single fine cell by increasing index: if it still is single, its fine cell is given to the isotropic neighbouring coarse cell whose compactness increases, else to any isotropic neighbour, with the most faces in common, then the fewest cells, then the smallest index; finally indices are renumbered in order. Coarse cells on lines neither give nor receive.","all valid meshes without repeated neighbours and self loops, all parameters, isotropic and anisotropic calls","Lexicographic argmax for every neighbour set and the whole sequence of merges.",[CC+":correct",CC+":select_best_cc_to_agglomerate"])
p("C40","Anisotropic runs also give a partition","With anisotropy on (built or provided disjoint in-range lines), every fine cell gets exactly one coarse cell, indices are contiguous, and each exported line lists coarse cells made of consecutive cells of one fine line.","all valid meshes and line settings outside the reported overrun case","Two phases share the container and the pool.",[C+":agglomerate_one_level",A+":Agglomerator_Anisotropic"])
p("C41","Coarse cells are cut at the best size","Without correction, in any mode, each coarse cell not made from a line is grown from its seed one best candidate after the other and cut at a size between min_card and max_card with the largest compactness and, among these, the fewest external faces; if fewer than goal_card cells can be reached, all are taken.","all valid meshes without repeated neighbours and self loops, all parameters, all modes and all steps of a run","The optimum is over all sizes for all meshes.",[A+":Agglomerator_Biconnected::choose_optimal_cc_and_update_seeds_pool"])
p("C42","A run is a sequence of turns driven by the seeds pool","An isotropic call without correction repeats: take the seed given by the pool, make its coarse cell from free cells around it, queue the free neighbours of the coarse cell by increasing distance from the seed; coarse cells are numbered in this order until all cells are taken.","all valid meshes without repeated neighbours and self loops, all parameters and run lengths","Describes the whole history of every run.",[A+":Agglomerator_Isotropic::agglomerate_one_level",A+":Agglomerator_Biconnected::choose_optimal_cc_and_update_seeds_pool"])
p("C43","Coarse boundary count is the maximum","build_coarse_graph gives each coarse cell the largest number of boundary faces found among its fine cells.","all fine graphs as in C15, all maps","Maximum over every group of cells.",[U+":build_coarse_graph"])
p("C44","Coarse priority is the maximum","build_coarse_graph gives each coarse cell the largest priority found among its fine cells.","all fine graphs as in C15, all priorities, all maps","Depends on the sign of the priorities.",[U+":build_coarse_graph"])
p("C45","Coarse center is the barycenter","build_coarse_graph gives each coarse cell the volume-weighted mean of the centers of its fine cells.","all fine graphs as in C15, all volumes and centers, all maps","With unit volumes, as in the tests, a wrong divisor is not seen.",[U+":build_coarse_graph"])
p("C46","Exported lines are lines of the next level","The coarse lines exported by an anisotropic call list the first coarse cells in order, consecutive cells of a line are neighbours in the coarse graph, and the exported vectors are accepted as provided lines of a call on the coarse mesh.","all connected valid meshes, built lines and provided lines that are paths, all settings outside the overrun case of C21","Relates two calls and the coarse graph.",[A+":export_anisotropic_lines",U+":build_coarse_graph",C+":agglomerate_one_level"])
p("C47","Coarsest cells are connected","After any number of levels, isotropic or with lines, the finest cells of each coarsest cell form a connected part of the finest mesh.","all connected valid meshes, all numbers of levels and settings, lines built by the calls or provided as paths, settings outside the overrun case of C21","Induction over levels.",[U+":build_coarse_graph",C+":agglomerate_one_level"])
p("C48","Lines are grown greedily from the tagged cells","The lines built by the anisotropic agglomerator are exactly those obtained by taking the tagged cells by decreasing priority and appending, on one side and then on the other, the free tagged neighbour with the strongest coupling above 0.9 times the strongest coupling of the last cell; if the direction is to be kept, the strongly coupled one most straight ahead or, failing that, the neighbour most straight ahead; lines with one cell are dropped.","all graphs without self loops, non-negative couplings (face weight or inverse squared distance), thresholds, priorities, direction settings","The whole construction for every mesh, not the lines of a few meshes.",[A+":build_anisotropic_lines",D+":tag_anisotropic_cells"])
p("C49","Consecutive cells of a line are strongly coupled","Without the direction option the coupling of two consecutive cells of a line exceeds 0.9 times the strongest coupling of one of the two.","all graphs, couplings and thresholds as in C48","Invariant of the two-sided growth.",[A+":build_anisotropic_lines"])
p("C50","No strongly coupled pair is left off the lines","Of two tagged cells that are strongly coupled as seen from both of them at least one is on a line.","all graphs, couplings and thresholds as in C48, both direction settings","Depends on the order in which cells are taken by earlier lines.",[A+":build_anisotropic_lines"])
p("C51","Lines do not depend on hash iteration order","The lines built are the same whatever the iteration order of the unordered containers.","all graphs as in C48, all pairs of iteration orders","Iteration order is fixed per standard library, tests see only one.",[A+":build_anisotropic_lines",D+":tag_anisotropic_cells"])
p("C52","Local graph of a coarse cell is the induced subgraph","The graph held by a coarse cell with a full description has exactly the neighbours, weights and volumes of the fine graph restricted to its cells, in the numbering given by its mapping.","all graphs, sets of cells and iteration orders","All sets of cells and all iteration orders.",["include/CoMMA/Coarse_Cell.h:Coarse_Cell_Subgraph","include/CoMMA/Dual_Graph.h:Subgraph"])
p("C53","Connectivity flag of a coarse cell is right","Coarse_Cell::is_connected is true exactly when the fine cells of the coarse cell are connected.","all coarse cells built by a call","Needs all meshes.",["include/CoMMA/Coarse_Cell.h:is_connected"])
p("C54","Aspect ratio is a function of the set of cells","The aspect ratio computed for adding a cell to a coarse cell is, for each of the ten kinds, the one defined from the enlarged set of cells as a whole, whatever the order in which the coarse cell was put together.","all graphs as in C31, all sets of at least two cells, all orders, ten kinds of aspect ratio","All orders and all sets.",[AR+":compute_and_update_features",AR+":x_over_radius"])
p("C55","Growth compares the shapes of the enlarged coarse cells","In a call without correction, in any mode, each coarse cell not made from a line is grown by adding the first best candidate, candidates with as many common faces and the same distance from the seed being compared by the aspect ratio of the whole coarse cell enlarged by each of them.","all valid meshes as in C31 without repeated neighbours and self loops, all parameters, all steps of a run","Composes the incremental features with the greedy choice over the whole run.",[A+":Agglomerator_Biconnected::compute_best_fc_to_add",A+":Agglomerator_Iterative",AR+":compute_and_update_features"])
p("C56","Correction treats small coarse cells one by one, whole or cell by cell","With correction the returned fc_to_cc is that of the same call without correction in which, by increasing index, each coarse cell of at most singular_card_thresh cells (and fewer than the minimum cardinality) that is not made from a line is given as a whole to the neighbouring coarse cell, not made from a line, whose compactness this increases, with fewest cells and then smallest index; if there is none, each of its fine cells is given to its best neighbouring coarse cell; coarse cells without such neighbour stay; the remaining indices are then renumbered in order.","all valid meshes without repeated neighbours and self loops, all thresholds, all orders of the unordered containers, isotropic calls and anisotropic calls with given or built lines","Each treatment changes the coarse cells the next one sees.",[CC+":correct",CC+":select_best_cc_to_agglomerate_whole",CC+":select_best_cc_to_agglomerate"])
p("C57","The Python function is the C++ call","Called from Python with integers that are values of the enumerators, agglomerate_one_level returns exactly the three vectors the C++ call leaves when started with an empty result and the same lines, and raises when it throws; arguments left out have the defaults of the C++ structures. An integer that is no seed ordering is refused, one that is no aspect ratio never gives a result, one that is no cell coupling acts as MAX_WEIGHT, one that is no neighbourhood acts as PURE_FRONT. The wall distance, the filter of cells and the coarse graph asked from Python are those of the C++ functions, the coarse graph as a tuple in the order of its outputs.","all arguments, all integers given for the enumerators","All integers, and 27 arguments passed by position.",["src/CoMMA.cpp:PYBIND11_MODULE","include/CoMMA/CoMMADefs.h:CoMMASeedsPoolT",C+":agglomerate_one_level"])
p("C58","A hierarchy ends with one cell","On a connected mesh with at least two cells each call of agglomerate_one_level gives fewer coarse cells than cells, so agglomerating and building the coarse graph again and again ends with a single cell, after at most as many levels as cells. Without correction a level has at least the number of cells over max_card coarse cells (over the larger of max_card and 3 with lines).","all connected valid meshes, all numbers of levels, settings that may change from level to level, isotropic and anisotropic levels outside the overrun case of C21, correction of single cells on or off","Termination over all meshes and settings.",[U+":build_coarse_graph",C+":agglomerate_one_level"])
p("C59","Lines can be followed through the levels","If the lines exported by each call are given to the call on the coarse mesh, every call of the hierarchy returns normally, at each level the vectors hold disjoint paths of the mesh of that level, and coarsest cells are connected.","all connected valid meshes, all disjoint paths at the start or built by the calls, all numbers of levels and settings outside the overrun case of C21","Invariant over any number of levels of two functions used in turn.",[A+":export_anisotropic_lines",U+":build_coarse_graph",C+":agglomerate_one_level"])
p("C60","Arguments that are not needed are ignored","With anisotropy off, the result does not depend on any argument about lines (compliant cells, threshold, odd-line flag, maximum of cells, coupling, direction, lines to build or given) nor on the contents of the vectors of lines, which are left as they are. With given lines it does not depend on the arguments used to build lines. When lines are built it does not depend on what the vectors of lines held before. It never depends on the previous contents of fc_to_cc, nor on the order or repetitions of the compliant cells.","all arguments, valid or not","Equality of two whole calls over all arguments; tests compare one or two calls.",[C+":agglomerate_one_level",A+":Agglomerator_Anisotropic"])
p("C61","Exact behaviour of the seeds pools","After any history of calls, choosing a seed gives the first free cell waiting on the highest searched level that has one (only the level in use with boundary priority, also the lower ones with neighbourhood priority), forgetting what waited before it; if there is none, the pool goes to the next level and gives the first free cell waiting there or, by priority then index, the first of all its free cells, queueing the others; if no cell is free it gives nothing. An ordered update appends to each queue exactly the new seeds of that level, by boundary faces, priority and index, and with boundary priority raises the level in use. Initialisation queues the cells with most boundary faces, or the first of them. These descriptions determine the answer and the new state.","all boundary counts and priorities, both kinds of pool, one-point or full initialisation, all histories of operations, all orders of the unordered containers","All histories; a test checks one sequence of seeds.",[S+":choose_new_seed",S+":order_new_seeds_and_update",S+":initialize",S+":get_highest_n_bnd_yet_to_agglomerate",S+":build_queue"])
p("C62","When no seed waits, the highest unfinished level is used","With neighbourhood priority, if no free cell waits in the queues, the seed chosen has the largest number of boundary faces among the free cells.","all histories of operations on pools with neighbourhood priority; all isotropic calls","Depends on which level is in use after any history.",[S+":Seeds_Pool_Neighbourhood_Priority",S+":get_highest_n_bnd_yet_to_agglomerate"])
p("C63","Candidates for growing a coarse cell and their order","After any sequence of additions, the extended neighbourhood proposes exactly the allowed cells next to the cells added so far, first those next to an earlier one, then by priority and index; the pure front proposes, by priority and index, all of them as long as the added cells are at most as many as the dimension, then only those next to one of the added cells: the first, taking the last, the first, the last but one, the second and so on, that is next to an allowed cell. This determines the list.","all meshes, all allowed sets, all priorities, all sequences of additions, both neighbourhoods","All sequences of additions; the order decides which of several equally good cells is added.",[N+":Neighbourhood_Extended",N+":Neighbourhood_Pure_Front",N+":extract_and_update_candidates"])
p("C64","The result of an isotropic call is completely described","A vector is the fc_to_cc returned by an isotropic call without correction if and only if it numbers, in order, the coarse cells of the following run: the pool is initialised; as long as cells are free, the seed given by the pool is grown, within the free cells around it, by adding always the first best candidate (common faces, then distance, then aspect ratio of the enlarged cell), cut at the best size, and its free neighbours are queued by distance. The description determines the vector.","all valid meshes without repeated neighbours and self loops, all parameters; all vectors","An equivalence over all vectors: no other result is possible.",[C+":agglomerate_one_level",A+":Agglomerator_Isotropic::agglomerate_one_level",A+":Agglomerator_Biconnected",S+":choose_new_seed",N+":Neighbourhood"])
p("C65","All the outputs of any call are completely described","Three vectors are the outputs of a call (without lines, with lines to be built, or with given lines; without correction, or with correction of single cells) if and only if they fulfil a description made of: the lines taken (grown from the compliant anisotropic cells by priority, or the given ones with two cells or more), the end from which each is read and its cutting into groups, the coarse cells and the exported lines numbered in that order, the pool filled with the free neighbours of the lines, the coarse cells made from the seeds of the pool until no cell is free, the single cells merged one by one with the best receiver and the indices renumbered. With larger thresholds the outputs fulfil the description with small cells absorbed whole or cell by cell, only the order of the fine cells of a small coarse cell being left open; conversely all outputs fulfilling this description are those of the call for some order of iteration over unordered containers.","all valid meshes without repeated neighbours and self loops, all accepted parameters and modes, all output vectors","An equivalence over all outputs: it fixes the result of every accepted call, with no other result possible.",[C+":agglomerate_one_level",A+":Agglomerator_Anisotropic",A+":Agglomerator_Isotropic::agglomerate_one_level",A+":Agglomerator_Biconnected",CC+":correct",S+":initialize",S+":choose_new_seed"])
p("C66","Only the order of the priorities matters","Replacing the priority weights by others that compare alike (any two cells in the same order, or equal, as before) does not change any output of a call, in any mode and with any correction threshold.","all valid meshes without repeated neighbours and self loops, all accepted parameters, all modes, all pairs of priority vectors that compare alike","A relation between two whole runs, for every pair of weight vectors.",[C+":agglomerate_one_level",S+":choose_new_seed",A+":Agglomerator_Anisotropic"])
p("C67","The place of the mesh in space does not matter","Moving all the centers by the same vector does not change any output of a call; when no lines are built, neither does replacing the centers by others with the same mutual distances.","all valid meshes, all vectors, arithmetic in which the differences of moved coordinates are exact; all types of aspect ratio that do not use the barycenter (it is false for those that do)","A relation between two whole runs, for every displacement.",[C+":agglomerate_one_level",AR+":compute_and_update_barycenter",AR+":update_approximated_geometric_features",A+":Agglomerator_Anisotropic"])
p("C68","Data not used by the chosen aspect ratio do not matter","Weights of faces, volumes and centers may be replaced by any others of the right sizes, as far as the chosen aspect ratio does not use them (and, for weights and centers, the call does not build lines), without changing any output.","all valid meshes without repeated neighbours and self loops, all accepted parameters, all replacements","A non-interference statement over all values of the unused data.",[C+":agglomerate_one_level",AR+":CellFeatures",AR+":update_basic_features"])
p("C69","The units of the data do not matter","Expressing the weights of faces, the volumes and the coordinates in other units, that is multiplying each of the three by a positive constant of its own, does not change any output of a call.","all valid meshes, all accepted parameters and modes, all positive constants, arithmetic in which the multiplications by the constants are exact (real numbers with every positive constant, binary floating point with any number of digits with every power of two) and nothing leaves the range of the numbers; all types of aspect ratio that do not use the barycenter (it is false for those that do)","A relation between two whole runs, for every choice of units.",[C+":agglomerate_one_level",AR+":compute_and_update_barycenter",AR+":update_basic_features",AR+":update_approximated_geometric_features",A+":Agglomerator_Anisotropic"])
p("C70","The numbering of the cells does not matter","Giving the cells of a mesh other numbers, and listing the neighbours of each cell in any order, does not change the coarse cells: the same cells are grouped, and the coarse cells have the same identifiers, as long as cells of equal priority keep their order.","all valid meshes, all renumberings, all accepted parameters with boundary priority, or with neighbourhood priority on connected meshes, any number type with a total order if the faces of each cell are listed in the same order (doubles), otherwise arithmetic in which sums do not depend on the order of their terms; with lines only if the neighbours of each cell are listed in the same order and cells tied in the choice of the next cell of a line keep their order; with a threshold of correction above 1 the two calls have the same possible results, over all orders of iteration over unordered containers (it is false with neighbourhood priority on unconnected meshes, for ties of priority, with lines or in double precision if the neighbours are listed in another order, and for ties in the growth of lines)","A relation between two whole runs, for every permutation of the cells.",[C+":agglomerate_one_level",S+":initialize",A+":choose_optimal_cc_and_update_seeds_pool"])
p("C71","With neighbourhood priority the coarse cells advance as a front","On a connected mesh with neighbourhood priority each coarse cell that is not made from a line has a cell that shares a face with a coarse cell of smaller identifier, or, if there are no lines, a cell with the largest number of boundary faces. With one-point initialisation and no lines only the first coarse cell touches none before it, and the fine cells of the first k coarse cells are connected, for every k.","all connected valid meshes, all accepted parameters with neighbourhood priority, with or without lines, without correction or with correction of single cells, every coarse cell (it is false on unconnected meshes)","An invariant of the seeds pool and the coarse cells at every step of every run.",[C+":agglomerate_one_level",S+":choose_new_seed",A+":choose_optimal_cc_and_update_seeds_pool"])
p("C72","No signed integer overflows","If the largest value of the signed integer type holds the integer arguments of the call and is at least three times the number of entries of the adjacency array plus five times the number of cells plus eight, then no computation with signed integers leaves the range of the type during the call: the result is the one computed with unbounded integers.","all valid meshes and accepted parameters, all sizes of the signed type large enough for the mesh, without lines, with built or given lines, with or without correction, any threshold of the correction","Overflow is undefined behaviour and depends on sums over whole coarse cells and neighbourhoods; tests use small meshes and a 32-bit type.",[C+":agglomerate_one_level",AR+":compute_and_update_features",A+":choose_optimal_cc_and_update_seeds_pool",CC+":correct",D+":tag_anisotropic_cells"])
p("C73","A call returns normally or throws invalid_argument","Whatever its arguments, a call either returns normally or throws invalid_argument: it never reads or writes out of bounds, never fails an assertion and never runs for ever.","all meshes with at least one cell, all parameters (dimension, cardinalities, iterations, threshold, enumerators), all lines","Absence of undefined behaviour must hold for every combination of arguments; a test that happens to read out of bounds may pass.",[C+":agglomerate_one_level"])
p("C74","Lines can be built in advance","Giving to a call, in the two vectors of lines, the lines that it would build leaves the same fine-to-coarse map and the same exported lines as letting it build them.","all valid meshes and parameters for which lines are built","Equality of two ways of calling for every mesh.",[C+":agglomerate_one_level",A+":Agglomerator_Anisotropic"])
p("C75","The direction of provided lines does not matter","Listing any of the provided lines from its other end leaves the same three outputs: lines are agglomerated from the end with more boundary faces, then the larger priority, then the lower index, whatever end is listed first.","all valid meshes and parameters, all sets of disjoint lines, all choices of lines to reverse","The tests give each line in one direction only.",[C+":agglomerate_one_level",A+":Agglomerator_Anisotropic"])
p("C76","Parts of the mesh that are not connected do not influence each other","With boundary priority (without one-point initialisation), two calls on meshes that share a part not connected to the rest make the same coarse cells of that part, numbered in the same order, whatever the rest is; no coarse cell has cells of the part and of the rest.","all pairs of valid meshes with a common part, all accepted parameters with boundary priority, without correction or with correction of single cells; no lines, lines to be built, or given lines each inside the part or outside","All cells go through the same pool of seeds; that the interleaving has no effect must hold for every rest of the mesh.",[C+":agglomerate_one_level",S+":Seeds_Pool_Boundary_Priority",A+":Agglomerator_Isotropic"])

p("C77","The levels in between do not matter","The coarsest graph of a hierarchy is the graph build_coarse_graph gives at once for the finest mesh and the map from finest to coarsest cells: same neighbours, weights of faces, volumes, centers, priorities and boundary faces.","all connected valid meshes, all numbers of levels (at least one), settings that may change from level to level","Equality of two computations over any number of levels.",[U+":build_coarse_graph",C+":agglomerate_one_level"])

p("C78","With correction each level has at most half as many cells","On a connected mesh with at least two cells a call without lines that corrects single cells gives at most half as many coarse cells as there are cells. Hence a hierarchy of k such levels on a mesh of n cells has at most n / 2^k cells left, or one, and has one as soon as 2^(k+1) > n.","all connected valid meshes, all accepted parameters without lines and with correction of single cells, all numbers of levels, settings that may change from level to level","A bound for every mesh and every number of levels.",[C+":agglomerate_one_level",U+":build_coarse_graph"])

p("C79","Coarse volumes in double precision","With volumes in double precision (the type the library is configured with), a finite volume of a coarse cell differs from the exact sum of the volumes of its fine cells by at most ((1+2^-53)^(m-1) - 1) times the sum of their absolute values, m being the number of fine cells; the same bound, with the numbers of finest cells, holds for coarsest cells after any number of levels, and for the total volume of the mesh. No cell is larger than the coarse cell it belongs to if no volume is negative; positive volumes and weights of faces stay positive at every level. If all volumes are multiples of one power of two and their total is at most 2^53 of it, every volume of every level is exact.","all valid meshes with finite or infinite double volumes, all groupings, all numbers of levels (connected meshes), settings that may change from level to level","Rounding errors accumulate over any number of cells and levels; a test compares a few sums with a tolerance.",[U+":build_coarse_graph","config_files/CoMMAConfig.h.in:CoMMAWeightT"])
p("C80","Features of coarse cells in double precision","In double precision, whatever the order in which cells are added to a coarse cell, the features kept for it are those of the set up to rounding, as long as they do not overflow: with k cells that have at most D neighbours, the total volume is within ((1+2^-53)^(k-1) - 1) of itself, the internal weight within ((1+2^-53)^(D+k) - 1) of itself, the external weight within ((1+2^-53)^(D+2k+1) - 1) of the sum of the external weight and four times the internal weight, the largest and smallest squared distances of centers (d coordinates) within ((1+2^-53)^(d+3) - 1) of themselves, up to underflow; moments likewise relative to the sum of the sizes of their terms; the number of internal faces is exact.","all valid meshes without self-neighbours, equal weights on both sides of faces, no negative weights or volumes, finite data, all orders of addition, all kinds of aspect ratio","Rounding errors for every mesh, order and number of cells, not the digits of a few sums.",["include/CoMMA/ARComputer.h:update_basic_features","include/CoMMA/ARComputer.h:update_approximated_geometric_features","include/CoMMA/ARComputer.h:compute_and_update_barycenter",D+":estimated_total_weight"])
p("C81","Growth compares the exact aspect ratios up to rounding","In double precision, each coarse cell of a call without lines and without correction is grown by adding again and again the first best candidate, where the aspect ratio compared for a candidate is the exact aspect ratio of the coarse cell with the candidate up to 20(D+k+d+1) rounding errors of 2^-53 (k cells with at most D neighbours, d coordinates): relative to the ratio itself, or, if it uses the external weight, to the ratio with the external weight plus four times the internal weight in its place. Nothing overflows if the exact volumes, weights and squared lengths used are between 2^-200 and 2^200. So a candidate whose exact aspect ratio is smaller by more than these errors is seen as better.","all valid meshes without repeated neighbours and self-neighbours, equal weights on both sides of faces, no negative weights or volumes, finite data, all accepted parameters, the kinds of aspect ratio without barycenter","The features are updated incrementally, so the errors depend on the history of every growth; tests compare a few ratios on meshes with round numbers.",["include/CoMMA/ARComputer.h:compute_and_update_features",A+":choose_optimal_cc_and_update_seeds_pool"])
p("C82","A call never runs for ever","Whatever its arguments (also a malformed graph: decreasing offsets, indices out of range, faces without a reverse face, vectors of wrong sizes, lines with repeated or absent cells), a call returns, throws, fails an assertion or reaches undefined behaviour: no loop goes on for ever. The only exceptions are invalid_argument, bad_optional_access and out_of_range.","all arguments and outputs, all iteration orders, all number types","Termination has to hold for every input, also for inputs nobody would test.",[C+":agglomerate_one_level",A+":agglomerate_one_level",A+":build_anisotropic_lines"])
p("C83","The orientation of the mesh in space does not matter","Turning or reflecting the whole mesh about the origin (multiplying the coordinates of all the centers by the same orthogonal matrix) does not change the outputs of a call in exact arithmetic, whatever the kind of aspect ratio, with or without lines. In double precision reversing any of the axes does not change them either; other turns may, by rounding. The coarse graph of the turned mesh is the turned coarse graph, so that over several levels the maps are the same and the meshes are turned alike.","all valid meshes without repeated neighbours and self-neighbours, all orthogonal matrices, all valid parameters and modes","All the turns of all the meshes; a test turns one mesh by one angle.",["include/CoMMA/Util.h:squared_euclidean_distance","include/CoMMA/Util.h:get_direction","include/CoMMA/ARComputer.h:compute_and_update_barycenter",A+":build_anisotropic_lines"])
p("C84","Lines that are to keep their direction do not bend","If a call builds its lines and is told to keep their direction, then at the middle one of any three consecutive cells of any line the angle between the centers of the two others is at least 160 degrees (in exact arithmetic; in double precision up to 2^-30 radians if neighbouring centers are between 2^-450 and 2^450 apart): the line never turns by more than 20 degrees from one step to the next, neither along either of its two halves nor at the cell it was grown from. Without the option lines may bend at right angles.","all valid meshes without self-neighbours whose couplings are not negative, of any dimension, all valid parameters with lines built by the call and the direction kept","All the lines of all the meshes; a test looks at the lines of one mesh.",[A+":build_anisotropic_lines","include/CoMMA/Util.h:get_direction","include/CoMMA/Util.h:dot_deviate","include/CoMMA/CoMMA.h:force_line_direction"])
p("C85","Which cells count as anisotropic in double precision","When a call builds its lines, they go only through the compliant cells whose elongation reaches the threshold, the elongation being the ratio of the largest to the smallest face weight in 2D and its square root in 3D. In double precision this is exact up to rounding: in 2D a cell whose exact ratio reaches the threshold is never missed, and a cell taken has an exact ratio of at least the threshold up to one rounding; in 3D both are true up to four roundings (relative 2^-51). Overflow of the ratio changes nothing.","all valid meshes of doubles without self-neighbours, all cells with positive finite face weights, all thresholds that are not negative and at most 2^500, all valid parameters with lines built by the call","All the pairs of doubles close to the threshold; a test tries some ratios, usually integers.",["include/CoMMA/Dual_Graph.h:tag_anisotropic_cells",A+":build_anisotropic_lines","include/CoMMA/CoMMA.h:threshold_anisotropy"])
p("C86","With the coupling by distance lines join almost nearest neighbours","If a call builds its lines with the coupling by distance between centers and is not told to keep their direction, then of any two consecutive cells of any line one is almost the nearest neighbour of the other: the square of their distance is at most 10/9 of the square of the distance to any other neighbour (in exact arithmetic; in double precision up to 2^-40 if neighbouring centers are between 2^-450 and 2^450 apart).","all valid meshes without self-neighbours whose neighbouring cells have different centers, of any dimension, all valid parameters with lines built by the call with the coupling by distance, the direction not being kept","All the lines of all the meshes; a test looks at the lines of one mesh.",[A+":build_anisotropic_lines","include/CoMMA/Util.h:squared_euclidean_distance","include/CoMMA/CoMMA.h:cell_coupling"])
p("C87","How large coarse cells get when single cells are corrected","With correction of single cells a coarse cell may exceed max_card, but not freely: every coarse cell not made from a line has a connected core of at most max_card cells and each of its other cells has a face in common with the core. So if no cell has more than d neighbours the coarse cell has at most max_card * max(1, d) cells, and this bound is reached.","all valid meshes without self-neighbours and with each neighbour listed once, all valid parameters with correction, all modes","The size depends on how many single cells are left next to one coarse cell, on every graph; a test sees one graph.",[A+":correct","include/CoMMA/Coarse_Cell_Container.h:correct"])
p("C88","A small connected part of the mesh becomes one coarse cell","If the mesh has several connected parts, a part with at most min_card cells becomes one coarse cell, with and without correction; with lines this holds for the parts none of whose cells is in a coarse cell made from a line.","all valid meshes, all their connected parts of at most min_card cells, all valid parameters, all modes","For every graph and every order of the cells; the repository's tests use connected meshes.",[A+":agglomerate_one_level",A+":choose_optimal_cc_and_update_seeds_pool"])
p("C89","On meshes described by whole numbers rounding plays no part","If volumes, centers, weights and priorities are whole numbers (as on a Cartesian grid, in a suitable unit) and small enough for the quantities of one coarse cell to fit into a double, a call in double precision leaves exactly the outputs that a call in exact real arithmetic leaves.","all valid meshes with whole-number data within the bounds, all valid parameters, all modes","Ties between aspect ratios are the rule on such meshes, and one ulp decides them; exact arithmetic is not available to a test, and the bounds cover astronomically many meshes.",[A+":choose_optimal_cc_and_update_seeds_pool","include/CoMMA/ARComputer.h",A+":build_anisotropic_lines"])
p("C90","How many finest cells a cell of a coarse level holds","Without correction a cell of level k holds at most as many finest cells as the product of the max_card of the levels (3 instead of max_card on levels with lines where max_card is smaller), so a mesh of more than m^k cells is not reduced to one cell by k levels whose max_card is at most m (m at least 3 with lines). Without lines and with correction of single cells it holds at least 2^k, or it is the only one.","all connected valid meshes, all numbers of levels, settings that may change from level to level","Number of levels and mesh are arbitrary and the coarse graph of one level is the input of the next.",[A+":agglomerate_one_level","include/CoMMA/CoMMA.h","include/CoMMA/Util.h:build_coarse_graph"])
p("C91","A structured mesh in the plane is coarsened into 2 x 2 blocks","A mesh in the plane that is a full rectangle of cells with an even number of cells along both axes, each cell with the number of its sides on the border as boundary faces, is coarsened without lines, with goal_card = max_card = 4, exactly into the blocks of 2 by 2 cells: two cells get the same index if and only if halving (and rounding down) their coordinates gives the same pair. This does not depend on the dimension given, the numbering of the cells, weights, volumes, centers, priorities, order and number of seeds, aspect ratio, neighbourhood, number of iterations, min_card, correction or threshold. With one iteration (the default) the same holds for max_card from 4 to 8; with max_card 9, or with max_card 5 and two iterations, it may fail. Likewise a row of an even number of cells is coarsened into pairs with goal_card = max_card = 2. If the mesh is one cell thick in space, the faces on its front and back must not be counted as boundary faces: otherwise the coarse cells need not be the blocks.","all even numbers of columns and rows, all numberings of the cells and all other data and settings","The shape of the coarse cells depends on the order in which seeds are taken over the whole mesh: one seed out of step would shift all later blocks. Tests look at a few small squares.",[A+":agglomerate_one_level",A+":Agglomerator_Biconnected","include/CoMMA/Seeds_Pool.h","include/CoMMA/Dual_Graph.h:get_n_boundary_faces"])
p("C92","A structured mesh in space is coarsened into 2 x 2 x 2 blocks","The same for a full box of cells with an even number of cells along the three axes and goal_card = max_card = 8: with the extended neighbourhood and one iteration of the choice of cells (the defaults) the coarse cells are exactly the blocks of 2 by 2 by 2 cells, whatever the numbering, weights, volumes, centers, priorities, seeds, aspect ratio, min_card, correction and threshold; larger coarse cells may be allowed, max_card up to 166. With two iterations and max_card = 8 the same holds in exact arithmetic if the aspect ratios of the sets of two to eight cells are positive, and may fail if they are not. It fails with the pure front neighbourhood and with four iterations.","all even numbers of cells along the three axes, all numberings of the cells and all other data and settings","As for C91, and the growth of a cell of eight has many more orders.",[A+":agglomerate_one_level",A+":Agglomerator_Biconnected","include/CoMMA/Seeds_Pool.h","include/CoMMA/Neighbourhood.h"])
p("C93","Several levels of a structured mesh are structured meshes","If the numbers of cells of a structured mesh along its axes are multiples of 2^k, then k levels of agglomeration and building of the coarse graph, each with the settings of C91 or C92, the other settings changing freely from level to level, give the structured mesh with 2^k times fewer cells along each axis, and two finest cells end up in the same coarsest cell if and only if their coordinates divided by 2^k and rounded down are the same.","all structured meshes, all numbers of levels, all numberings, data and settings of each level","The coarse mesh, its numbering and its boundary faces are results of the level before.",[A+":agglomerate_one_level","include/CoMMA/CoMMA.h","include/CoMMA/Util.h:build_coarse_graph"])
p("C94","Where strong couplings form chains the lines are the chains","An anisotropic call that builds its lines: if, among the compliant anisotropic cells, strong couplings (above 0.9 times the strongest of the cell) are mutual and no cell has more than two of them, then two such cells are on the same line if and only if one is reached from the other through strong couplings; no line stops early, is split or mixes chains, whatever cell it is grown from. If the direction of lines is forced, the same holds when the chains do not bend and nothing else is straight ahead of them.","all meshes with non-negative couplings meeting the condition, all numberings, priorities and settings","Lines are grown greedily from seeds in priority order on both sides of the seed; a chain may be entered anywhere.",[C+":agglomerate_one_level","include/CoMMA/Agglomerator.h:build_anisotropic_lines"])
p("C95","Layers of a structured mesh are coarsened in pairs","A structured mesh in any number of dimensions whose faces across one axis are stronger than its other faces (by weight: the others at most 0.9 times as strong), all cells being compliant and anisotropic, with an even number of cells along the axis and no limit of the number of cells of a line: every coarse cell is a pair of cells of a column, the cells 2k and 2k+1 from its end, so that the layers are merged two by two, whatever the numbering, the priorities, the correction and the isotropic settings.","all structured meshes, all numberings, weights meeting the condition, and all settings","The column may be entered anywhere and traversed from either end; one seed or one orientation picked otherwise in one mesh would break pairs.",[C+":agglomerate_one_level","include/CoMMA/Agglomerator.h:build_anisotropic_lines","include/CoMMA/Agglomerator.h:agglomerate_one_level"])
p("C96","Followed lines are merged in stretches of two to the number of levels","If the lines exported by each level are given to the next one, with no limit of the number of cells of a line, and the numbers of cells of the first lines are multiples of 2^k, then after k levels the finest cells that share a coarsest cell with a cell of a line are exactly those of the same stretch of 2^k consecutive cells of that line, counted from its end; on a structured mesh with layers as in C95 the layers are merged 2^k by 2^k, column by column.","all connected meshes and lines, all numbers of levels, all other settings of each level","The order of the cells in a line may be reversed at each level, and the coarse lines are results of the level before.",[C+":agglomerate_one_level",A+":agglomerate_one_level",U+":build_coarse_graph"])
p("C97","Columns of any number of cells are paired from one end","A structured mesh whose faces across one axis are stronger than its other faces, as in C95, with any number (two at least) of cells along the axis: each column is paired from one of its ends; if the number of cells is odd, the last cell joins the last pair when odd line lengths are allowed, and otherwise it is the only one left out of the coarse cells of the line, which are still exactly the pairs. In doubles, on a Cartesian mesh with coordinates increasing along the axes, this holds whether the direction of lines is forced (the default) or not.","all structured meshes, numbers of cells along the axes, numberings, weights meeting the condition, coordinates and settings","The end from which a column is paired depends on boundary faces and priorities; the direction is tested with rounded unit vectors.",[C+":agglomerate_one_level","include/CoMMA/Agglomerator.h:build_anisotropic_lines","include/CoMMA/Agglomerator.h:agglomerate_one_level",U+":get_direction"])
p("C98","Boundary layers on any mesh are paired column by column","On any mesh, structured or not, let the anisotropic compliant cells be stacked in columns, which may have different numbers of cells, such that among these cells the strong couplings are those between a cell and the one above or below it. Then a call that builds lines pairs every column of two cells or more from one of its ends, whatever the rest of the mesh and the isotropic settings are: no cell out of the column joins a pair, and the last cell of an odd column joins the last pair if odd line lengths are allowed. If the numbers of cells of the columns are multiples of 2^k, k levels (one that builds the lines, the others that use what was exported) leave in one coarsest cell exactly 2^k consecutive cells of a column.","all meshes, arrangements of the anisotropic cells in columns, weights or centers that make the strong couplings those of the columns, isotropic parts, settings and numbers of levels","Meshes of boundary layers have any shape and any isotropic part next to the layers; a test shows one.",[C+":agglomerate_one_level","include/CoMMA/Agglomerator.h:build_anisotropic_lines","include/CoMMA/Agglomerator.h:agglomerate_one_level","include/CoMMA/Dual_Graph.h:tag_anisotropic_cells"])
p("C99","Boundary layers are paired from the wall, as far as the limit allows","With boundary layers as in C98 and any maximum of cells in an anisotropic line, the end from which a column is paired is the one whose cell has more boundary faces (counted up to the dimension), then the larger priority, then the smaller number. From there the cells are put two by two in coarse cells up to the maximum; the number of cells put in coarse cells of the line is exactly known, and the cells beyond it are in none of these coarse cells.","all meshes, arrangements of the anisotropic cells in columns, boundary faces, priorities, maxima and settings","The direction depends on the data of the two ends of each column, wherever the line was started and however it was grown.",[C+":agglomerate_one_level","include/CoMMA/Agglomerator.h:agglomerate_one_level"])
p("C100","Lines of any length are cut evenly, level after level","Lines (given by the caller or built by the first call along columns) are followed through k levels: each call is given the coarse mesh and the lines exported by the previous one, and there is no maximum of cells. If lines with odd numbers of cells are allowed, a line of L cells, L at least 2^k, ends up in exactly L/2^k (rounded down) coarsest cells. Each of them is made of consecutive cells of the line, at least 2^k and fewer than 2^(k+1) of them, and of no other cell. If they are not allowed, L/2^k coarsest cells are each made of exactly 2^k consecutive cells of the line and of no other cell, one stretch right after the other, and only the fewer than 2^k cells at the ends of the line are elsewhere.","all meshes, lines of any lengths, numbers of levels, priorities, boundary faces and settings","The direction in which a line is paired may change from a level to the next, so the odd cells are absorbed at either end; the sizes must stay in the range whatever the sequence of directions.",[C+":agglomerate_one_level","include/CoMMA/Agglomerator.h:agglomerate_one_level"])
p("C101","Boundary layers with a limit, level after level","Boundary layers as in C98 are coarsened through several levels; each level may allow odd numbers of cells of a line or not and may have a maximum of cells of a line, other than the other levels. The first call takes the cells next to the wall (C99). The number of coarsest cells of a column follows from its number of cells and the settings alone; they are made of consecutive cells among those taken by the first call, one stretch right after the other, each of at least 2^k and fewer than 2^(k+1) cells, k the number of levels, and of no other cell. With odd numbers allowed and the same maximum at each level, T cells are taken by the first call, T/2^k (rounded down) coarsest cells are made of them and these hold exactly the T cells.","all meshes, columns, lines, numbers of levels, settings of each level, priorities and boundary faces","The end from which a line is taken may change from a level to the next, and cells left out at a level are coarsened with the rest of the mesh.",[C+":agglomerate_one_level","include/CoMMA/Agglomerator.h:agglomerate_one_level"])
p("C102","A structured mesh in the plane is coarsened into square blocks of any width","Let b be at least 3. A mesh in the plane that is a full rectangle of cells with a multiple of b cells along both axes, each cell with the number of its sides on the border as boundary faces, is coarsened without lines exactly into the blocks of b by b cells, if goal_card is at most b*b and max_card is b*b or b*b + 1, or b*b + 2 when goal_card is b*b, with the extended neighbourhood and one iteration (the defaults): two cells get the same index if and only if dividing (and rounding down) their coordinates by b gives the same pair. This does not depend on the numbering of the cells, weights, volumes, centers, priorities, order and number of seeds, aspect ratio, min_card, correction or threshold. For b = 3 it may fail with max_card 12, with max_card 11 and goal_card 8, and with the pure front neighbourhood.","all widths of blocks from 3 on, all numbers of columns and rows that are multiples of it, all numberings of the cells and all other data and settings","The widths have no bound, and a coarse cell is grown by a number of steps that grows with the square of the width; one seed out of step would shift all later blocks. Tests look at 2 by 2 blocks of a few small squares.",[A+":agglomerate_one_level",A+":Agglomerator_Biconnected","include/CoMMA/Seeds_Pool.h","include/CoMMA/Neighbourhood.h","include/CoMMA/Dual_Graph.h:get_n_boundary_faces"])
p("C103","Several levels of a structured mesh with blocks of other widths","A structured mesh is coarsened through several levels, each with the settings of C91, C92, C102 or C105 for some width of blocks; widths and other settings may change from level to level. If the number of cells along each axis is a multiple of the product of the widths, every call returns, the coarsest mesh is again structured, with that many times fewer cells along each axis, and two finest cells end up in the same coarsest cell if and only if dividing (and rounding down) their coordinates by the product gives the same.","all numbers of levels, widths, sizes and numberings of the mesh, and all other data and settings of each level","The mesh of each level is built by the library from the one before, with its own numbering and boundary faces; an error at a level shifts the blocks of all later ones.",[A+":agglomerate_one_level","include/CoMMA/CoMMA.h","include/CoMMA/Util.h:build_coarse_graph"])
p("C104","How far coarse cells reach","Each coarse cell that is not made from a line holds a cell, its seed, from which all its cells are reached, going only through cells that are not in coarse cells made earlier, in at most r steps, where r is the larger of max_card / dimension (rounded down) and 2 in two dimensions, 3 in three. A cell of it may be farther from the seed only if fewer than max_card cells are closer. Coarse cells with lower indices are made earlier. Calls without correction, with or without lines.","all meshes, settings, lines and modes, and all coarse cells","Whether a cell at some distance is offered depends on how many closer cells are free at that moment, hence on all the coarse cells made before.",["include/CoMMA/Agglomerator.h:choose_optimal_cc_and_update_seeds_pool","include/CoMMA/Dual_Graph.h:compute_neighbourhood_of_cc"])
p("C105","A row of cells is coarsened into groups of max_card cells","A mesh that is a row of cells, each joined to the next one only, the two end cells with one boundary face and the others with none, and the number of cells a multiple of max_card, is coarsened without lines exactly into the groups of max_card consecutive cells counted from an end. This does not depend on the dimension given, the numbering of the cells, weights, volumes, centers, priorities, order and number of seeds, aspect ratio, neighbourhood, number of iterations, goal_card, min_card, correction or threshold. It may fail if the sides of the cells along the row are counted as boundary faces.","all lengths of the row and all values of max_card that divide it, all numberings of the cells and all other data and settings","One seed out of step would leave groups with fewer cells; the seeds are taken from both ends in an order that depends on priorities and on what was made before.",[A+":agglomerate_one_level",A+":Agglomerator_Biconnected","include/CoMMA/Seeds_Pool.h","include/CoMMA/Neighbourhood.h","include/CoMMA/Dual_Graph.h:get_n_boundary_faces"])
p("C106","A row of cells of any length","A mesh that is a row of cells, with boundary faces as in C105 and any number n of cells, is coarsened without lines into groups of max_card consecutive cells counted from both ends of the row, and, if n is not a multiple of max_card, one more group with the n mod max_card consecutive cells left between them. If correction is switched on and fewer cells are left than min_card and not more than the threshold, the claim does not apply (they join another group). It does not depend on the dimension given, the numbering of the cells, weights, volumes, centers, priorities, order and number of seeds, aspect ratio, neighbourhood, number of iterations, goal_card or min_card; these only decide where the smaller group is.","all lengths of the row, all values of max_card, all numberings of the cells and all other data and settings","The free cells must stay next to each other whatever the order in which the two ends are used; a seed taken between them would leave two groups that are too small.",[A+":agglomerate_one_level",A+":Agglomerator_Biconnected","include/CoMMA/Seeds_Pool.h","include/CoMMA/Neighbourhood.h","include/CoMMA/Dual_Graph.h:get_n_boundary_faces"])
p("C107","Several levels of a row of cells","Coarsening a row of n cells several times, each level on the coarse mesh of the one before with the settings of C106 and its own max_card, returns a row of n / (product of the max_card) cells, rounded up. The coarsest cells keep the order of the row, and each is made of consecutive finest cells, at most as many as that product. When the product is at least n, one coarse cell is left.","every row of cells of any length numbered in any way; every number of levels; every max_card, goal_card, min_card, order, neighbourhood, number of iterations, aspect ratio and dimension per level; all weights, volumes, centers and priorities","the number of cells left over, and where the group with them lies, change from level to level, so that every length and sequence of settings is another case",[A+":agglomerate_one_level","include/CoMMA/CoMMA.h","include/CoMMA/Util.h:build_coarse_graph"])
p("C108","A single cell left in a row joins a group","A row of n cells as in C106, n being one more than a multiple of max_card and not one, is coarsened with correction into groups of max_card consecutive cells counted from both ends of the row, except for one group of max_card + 1 consecutive cells, whatever the threshold and the other settings. When two cells are left and the threshold allows correcting them, they may be separated, and one of them stays alone.","all lengths of the row that are one more than a multiple of max_card, all values of max_card, all numberings of the cells and all other data and settings","Where the cell is left, and which group takes it, depends on priorities, settings and numbering; the cell must have a group next to it on every mesh, and the indices must stay without gaps.",[CC+":correct",A+":agglomerate_one_level",S,N])
p("C109","Several levels of a row of cells with correction of single cells","Coarsening a row of cells several times with correction of single cells, each level on the coarse mesh of the one before and with its own max_card, always returns a row. A level turns k cells into k / max_card cells: rounded down if k is one more than a multiple of max_card and not one, rounded up otherwise. The coarsest cells keep the order of the row, and each is made of consecutive finest cells, at most 1 + m1 + m1 m2 + ... + m1 m2 ... mk for the values m1, ..., mk of max_card, a number that is reached. When 2 to the number of levels is at least the number of cells, one coarse cell is left.","every row of cells of any length numbered in any way; every number of levels; every max_card, goal_card, order, neighbourhood, number of iterations, aspect ratio and dimension per level, with threshold 1 or min_card 2; all weights, volumes, centers and priorities","whether a level leaves a single cell, where it lies and which group takes it change from level to level with the length, the settings and the data",[A+":agglomerate_one_level",CC+":correct","include/CoMMA/CoMMA.h","include/CoMMA/Util.h:build_coarse_graph"])
with open('/verif/properties.jsonl','w') as f:
    for x in P: f.write(json.dumps(x)+"\n")
print(len(P))
