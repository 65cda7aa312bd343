{
 "claims": [
  {
   "property": "C01",
   "status": "proved",
   "theorems": [
    "CoMMA.C01_total"
   ],
   "note": "Top-level call, isotropic runs. One-point initialisation needs priorities not below the smallest positive number (C33)."
  },
  {
   "property": "C02",
   "status": "proved",
   "theorems": [
    "CoMMA.C02_contiguous"
   ],
   "note": ""
  },
  {
   "property": "C03",
   "status": "proved",
   "theorems": [
    "CoMMA.C03_max_card",
    "CoMMA.C40_built",
    "CoMMA.C40_given",
    "CoMMA.C40_call"
   ],
   "note": ""
  },
  {
   "property": "C04",
   "status": "proved",
   "theorems": [
    "CoMMA.C04_min_card",
    "CoMMA.C40_built",
    "CoMMA.C40_given",
    "CoMMA.C40_call",
    "CoMMA.C04_apart"
   ],
   "note": "C04_apart: two small coarse cells are never neighbours."
  },
  {
   "property": "C05",
   "status": "proved",
   "theorems": [
    "CoMMA.C05_connected",
    "CoMMA.C40_built",
    "CoMMA.C40_given",
    "CoMMA.C40_call"
   ],
   "note": "Also after correction."
  },
  {
   "property": "C06",
   "status": "proved",
   "theorems": [
    "CoMMA.C06_choose_new_seed",
    "CoMMA.C06_no_failure"
   ],
   "note": "All histories of pool calls, both pool kinds. One-point initialisation needs priorities not below the smallest positive number (C33)."
  },
  {
   "property": "C07",
   "status": "proved",
   "theorems": [
    "CoMMA.C07_boundary_priority",
    "CoMMA.C07_call"
   ],
   "note": "Pool histories that start with initialize; whole calls in any mode."
  },
  {
   "property": "C08",
   "status": "proved",
   "theorems": [
    "CoMMA.C08_full_initialisation",
    "CoMMA.C08_rebuild",
    "CoMMA.C08_ordered_update"
   ],
   "note": ""
  },
  {
   "property": "C09",
   "status": "proved",
   "theorems": [
    "CoMMA.C09_no_singletons",
    "CoMMA.C40_built",
    "CoMMA.C40_given",
    "CoMMA.C40_call"
   ],
   "note": ""
  },
  {
   "property": "C10",
   "status": "proved",
   "theorems": [
    "CoMMA.C10_only_merges",
    "CoMMA.C05_connected",
    "CoMMA.C02_contiguous"
   ],
   "note": ""
  },
  {
   "property": "C11",
   "status": "proved",
   "theorems": [
    "CoMMA.C11_lines_kept",
    "CoMMA.C11_call"
   ],
   "note": "Built and provided lines, threshold 1."
  },
  {
   "property": "C12",
   "status": "partial",
   "theorems": [
    "CoMMA.C12_isotropic_partial",
    "CoMMA.C12_anisotropic_partial",
    "CoMMA.C12_large_partial",
    "CoMMA.C12_large_anisotropic_partial",
    "CoMMA.C12_large_history_partial",
    "CoMMA.C12_counterexample",
    "CoMMA.C12_split",
    "CoMMA.C12_collision"
   ],
   "note": "Full claim false: an index can be used for two unconnected sets of cells (C12_collision); a coarse cell absorbed in part is removed and its other fine cells keep a stale index (C12_counterexample: indices with a gap); a small cell may be split between receivers (C12_split). Proved for all thresholds when each small coarse cell can be absorbed completely or not at all; for every mesh and threshold correction does not fail and keeps large and line coarse cells. C56 describes the result exactly."
  },
  {
   "property": "C13",
   "status": "proved",
   "theorems": [
    "CoMMA.C13_wall_distance"
   ],
   "note": ""
  },
  {
   "property": "C14",
   "status": "partial",
   "theorems": [
    "CoMMA.C14_filter_partial",
    "CoMMA.C14_counterexample"
   ],
   "note": "False as stated: a cell left with no edge is returned (counterexample). The exact set returned by the code is proved."
  },
  {
   "property": "C15",
   "status": "proved",
   "theorems": [
    "CoMMA.C15_volumes",
    "CoMMA.C15_total"
   ],
   "note": "Conservation of the total in exact (commutative, associative) arithmetic; the sums per cell are those of the code, in its order."
  },
  {
   "property": "C16",
   "status": "proved",
   "theorems": [
    "CoMMA.C16_adjacency"
   ],
   "note": ""
  },
  {
   "property": "C17",
   "status": "partial",
   "theorems": [
    "CoMMA.C17_weights_partial",
    "CoMMA.C17_counterexample",
    "CoMMA.C17_out_of_bounds"
   ],
   "note": "False as stated: weights are read at the index of the neighbouring cell (counterexample), which may be past the end of the vector (second counterexample). Proved: what the code sums, and the claim when the weights read agree with those of the edges."
  },
  {
   "property": "C18",
   "status": "proved",
   "theorems": [
    "CoMMA.C18_coarse_mesh",
    "CoMMA.C18_levels",
    "CoMMA.C18_gap",
    "CoMMA.C18_threshold_counterexample"
   ],
   "note": "Without correction or with correction of single cells. C18_gap and the counterexample: larger thresholds may leave an index without cells, of which build_coarse_graph makes an isolated coarse cell."
  },
  {
   "property": "C19",
   "status": "proved",
   "theorems": [
    "CoMMA.C19_lines"
   ],
   "note": "A negative threshold with weight coupling needs non-isolated compliant cells (otherwise the maximum of an empty range is read)."
  },
  {
   "property": "C20",
   "status": "proved",
   "theorems": [
    "CoMMA.C20_pairs"
   ],
   "note": "Outside the overrun case of C21."
  },
  {
   "property": "C21",
   "status": "partial",
   "theorems": [
    "CoMMA.C21_limit_partial",
    "CoMMA.C21_counterexample_limit",
    "CoMMA.C21_counterexample_overrun"
   ],
   "note": "False as stated: an even limit m, odd lengths allowed and a line of m+1 cells give m+1 cells; an odd limit m >= 3 and a line of m-1 cells run past the end of the line (counterexamples). Proved outside these two cases."
  },
  {
   "property": "C22",
   "status": "proved",
   "theorems": [
    "CoMMA.C22_export"
   ],
   "note": ""
  },
  {
   "property": "C23",
   "status": "proved",
   "theorems": [
    "CoMMA.C23_rejects",
    "CoMMA.C23_exactly",
    "CoMMA.C23_accepts",
    "CoMMA.C23_fc_to_cc_kept",
    "CoMMA.C23_unknown_aspect_late"
   ],
   "note": ""
  },
  {
   "property": "C24",
   "status": "proved",
   "theorems": [
    "CoMMA.C24_clamped"
   ],
   "note": ""
  },
  {
   "property": "C25",
   "status": "proved",
   "theorems": [
    "CoMMA.C25_comparators",
    "CoMMA.C25_second",
    "CoMMA.C25_sets"
   ],
   "note": ""
  },
  {
   "property": "C26",
   "status": "proved",
   "theorems": [
    "CoMMA.C26_extended"
   ],
   "note": ""
  },
  {
   "property": "C27",
   "status": "proved",
   "theorems": [
    "CoMMA.C27_pure_front"
   ],
   "note": ""
  },
  {
   "property": "C28",
   "status": "proved",
   "theorems": [
    "CoMMA.C28_neighbourhood",
    "CoMMA.C28_exhaustive"
   ],
   "note": ""
  },
  {
   "property": "C29",
   "status": "proved",
   "theorems": [
    "CoMMA.C29_compactness",
    "CoMMA.C29_any_mode"
   ],
   "note": "Graphs without repeated neighbours and self loops."
  },
  {
   "property": "C30",
   "status": "proved",
   "theorems": [
    "CoMMA.C30_isotropic",
    "CoMMA.C30_built",
    "CoMMA.C30_given",
    "CoMMA.C30_lines",
    "CoMMA.C30_isotropic_history",
    "CoMMA.C30_built_history",
    "CoMMA.C30_given_history",
    "CoMMA.C30_isotropic_one_order",
    "CoMMA.C30_built_one_order",
    "CoMMA.C30_given_one_order",
    "CoMMA.C30_call",
    "CoMMA.C30_call_one_order"
   ],
   "note": "Weights totally ordered by <; lines that do not overrun an odd limit (C21). C30_counterexample: with a threshold of 2 the outputs depend on the order. In the first theorems the order is a function of the place in the code and of the contents of the container; in those ending with _history each iteration has an order of its own; those ending with _one_order hold for all thresholds: whatever orders are met during a call, one order used all the time gives the same outputs."
  },
  {
   "property": "C31",
   "status": "proved",
   "theorems": [
    "CoMMA.C31_features"
   ],
   "note": "Sums in exact arithmetic (FeatInput lists what each kind needs). Features not used by the kind of aspect ratio are reset to defaults by the code."
  },
  {
   "property": "C32",
   "status": "proved",
   "theorems": [
    "CoMMA.C32_structured",
    "CoMMA.C32_defaults"
   ],
   "note": ""
  },
  {
   "property": "C33",
   "status": "partial",
   "theorems": [
    "CoMMA.C33_one_point_partial",
    "CoMMA.C33_counterexample"
   ],
   "note": "False as stated: a priority below the smallest positive number makes the initialisation queue a non-existing cell (counterexample). Proved for the other weights."
  },
  {
   "property": "C34",
   "status": "proved",
   "theorems": [
    "CoMMA.C34_tagging"
   ],
   "note": "The unused argument `preserving` is 0, as in the library."
  },
  {
   "property": "C35",
   "status": "partial",
   "theorems": [
    "CoMMA.C35_partial",
    "CoMMA.C35_history",
    "CoMMA.C35_no_edges",
    "CoMMA.C35_stale_marks"
   ],
   "note": "Missing: graphs with two cells or more and no edge (undefined behaviour, C35_no_edges) and histories with searches by the user (wrong answer, C35_stale_marks; C35_history gives the exact answer for every history)."
  },
  {
   "property": "C36",
   "status": "partial",
   "theorems": [
    "CoMMA.C36_insert_partial",
    "CoMMA.C36_remove_partial",
    "CoMMA.C36_insert_never",
    "CoMMA.C36_remove_ub"
   ],
   "note": "Violated whenever a node with neighbours is inserted (C36_insert_never, for all graphs) or removed (C36_remove_ub, for all graphs). Proved for nodes without neighbours; the counters of the subgraph are never updated."
  },
  {
   "property": "C37",
   "status": "partial",
   "theorems": [
    "CoMMA.C37_queue",
    "CoMMA.C37_priority_pair",
    "CoMMA.C37_bimap_partial",
    "CoMMA.C37_bimap_reuse",
    "CoMMA.C37_bimap_dangling",
    "CoMMA.C37_tree_partial",
    "CoMMA.C37_tree_only_son"
   ],
   "note": "Queue and Priority_Pair in full. Bimap: violated when an insertion reuses an element of another pair or a new name is in use. Tree: deleting the only son is undefined behaviour."
  },
  {
   "property": "C38",
   "status": "proved",
   "theorems": [
    "CoMMA.C38_best_candidate"
   ],
   "note": "With look-ahead (fc_choice_iter > 1) as done by the code."
  },
  {
   "property": "C39",
   "status": "proved",
   "theorems": [
    "CoMMA.C39_isotropic",
    "CoMMA.C39_anisotropic",
    "CoMMA.C39_call"
   ],
   "note": ""
  },
  {
   "property": "C40",
   "status": "proved",
   "theorems": [
    "CoMMA.C40_built",
    "CoMMA.C40_given",
    "CoMMA.C40_call"
   ],
   "note": "C40_call: every call with lines, these being described by the specification only. Also the size, connectivity and singleton properties of the coarse cells that are not on a line."
  },
  {
   "property": "C41",
   "status": "partial",
   "theorems": [
    "CoMMA.C41_greedy_partial",
    "CoMMA.C41_any_mode_partial",
    "CoMMA.C41_counterexample"
   ],
   "note": "False as stated: the code compares the number of external faces minus the number of cells (counterexample). Proved with that cost, for graphs without repeated neighbours and self loops and totally ordered weights."
  },
  {
   "property": "C42",
   "status": "proved",
   "theorems": [
    "CoMMA.C42_run"
   ],
   "note": "Graphs without repeated neighbours and self loops, totally ordered weights."
  },
  {
   "property": "C43",
   "status": "proved",
   "theorems": [
    "CoMMA.C43_boundary"
   ],
   "note": ""
  },
  {
   "property": "C44",
   "status": "partial",
   "theorems": [
    "CoMMA.C44_priority_partial",
    "CoMMA.C44_counterexample"
   ],
   "note": "False as stated: the maximum starts at the smallest positive number (counterexample). Proved if one cell reaches that number."
  },
  {
   "property": "C45",
   "status": "partial",
   "theorems": [
    "CoMMA.C45_centers_partial",
    "CoMMA.C45_counterexample"
   ],
   "note": "False as stated: the sum is divided by the number of cells, not by the volume (counterexample). Proved: the value computed."
  },
  {
   "property": "C46",
   "status": "proved",
   "theorems": [
    "CoMMA.C46_lines_next"
   ],
   "note": ""
  },
  {
   "property": "C47",
   "status": "proved",
   "theorems": [
    "CoMMA.C47_connected"
   ],
   "note": ""
  },
  {
   "property": "C48",
   "status": "proved",
   "theorems": [
    "CoMMA.C48_lines_exact",
    "CoMMA.C48_call"
   ],
   "note": ""
  },
  {
   "property": "C49",
   "status": "proved",
   "theorems": [
    "CoMMA.C49_links"
   ],
   "note": ""
  },
  {
   "property": "C50",
   "status": "proved",
   "theorems": [
    "CoMMA.C50_no_pair_left"
   ],
   "note": ""
  },
  {
   "property": "C51",
   "status": "proved",
   "theorems": [
    "CoMMA.C51_lines_unique"
   ],
   "note": ""
  },
  {
   "property": "C52",
   "status": "proved",
   "theorems": [
    "CoMMA.C52_local_graph"
   ],
   "note": ""
  },
  {
   "property": "C53",
   "status": "partial",
   "theorems": [
    "CoMMA.C53_partial",
    "CoMMA.C53_any_mode_partial",
    "CoMMA.C53_singleton",
    "CoMMA.C53_disconnected"
   ],
   "note": "Isotropic calls, coarse cells with two cells or more. Violated for coarse cells with one cell; and for sets of cells that are not connected, which isotropic calls do not build."
  },
  {
   "property": "C54",
   "status": "proved",
   "theorems": [
    "CoMMA.C54_ratio",
    "CoMMA.C54_order"
   ],
   "note": "Hypotheses as in C31. The barycenter of the two kinds that use it is the one of the code, divided by the number of cells."
  },
  {
   "property": "C55",
   "status": "proved",
   "theorems": [
    "CoMMA.C55_shape",
    "CoMMA.C55_any_mode"
   ],
   "note": "Hypotheses of C41 and C31."
  },
  {
   "property": "C56",
   "status": "proved",
   "theorems": [
    "CoMMA.C56_isotropic",
    "CoMMA.C56_anisotropic",
    "CoMMA.C56_call",
    "CoMMA.C56_some_order"
   ],
   "note": "The order in which the cells of one small coarse cell are given away is not specified: it is that of an unordered container. C56_some_order: the specification leaves nothing else open."
  },
  {
   "property": "C57",
   "status": "proved",
   "theorems": [
    "CoMMA.C57_same",
    "CoMMA.C57_defaults",
    "CoMMA.C57_order_refused",
    "CoMMA.C57_aspect_refused",
    "CoMMA.C57_coupling_other",
    "CoMMA.C57_nbh_other",
    "CoMMA.C57_wall_distance",
    "CoMMA.C57_filter",
    "CoMMA.C57_coarse_graph"
   ],
   "note": "Conversions of pybind11 are not modelled."
  },
  {
   "property": "C58",
   "status": "proved",
   "theorems": [
    "CoMMA.C58_shrinks",
    "CoMMA.C58_ratio",
    "CoMMA.C58_ratio_lines",
    "CoMMA.C58_ends"
   ],
   "note": ""
  },
  {
   "property": "C59",
   "status": "proved",
   "theorems": [
    "CoMMA.C59_lines_followed"
   ],
   "note": ""
  },
  {
   "property": "C60",
   "status": "proved",
   "theorems": [
    "CoMMA.C60_isotropic",
    "CoMMA.C60_given",
    "CoMMA.C60_built",
    "CoMMA.C60_result",
    "CoMMA.C60_compliant"
   ],
   "note": ""
  },
  {
   "property": "C61",
   "status": "proved",
   "theorems": [
    "CoMMA.C61_steps",
    "CoMMA.C61_start",
    "CoMMA.C61_choice_unique",
    "CoMMA.C61_update_unique",
    "CoMMA.C61_start_unique"
   ],
   "note": ""
  },
  {
   "property": "C62",
   "status": "partial",
   "theorems": [
    "CoMMA.C62_partial",
    "CoMMA.C62_pool",
    "CoMMA.C62_call"
   ],
   "note": "False as stated: the search stops at the first free cell with at least as many boundary faces as the level in use (counterexamples for a pool and for a whole call on a mesh in two parts). Proved when no free cell has more faces than the level in use; otherwise the exact level."
  },
  {
   "property": "C63",
   "status": "proved",
   "theorems": [
    "CoMMA.C63_candidates",
    "CoMMA.C63_unique"
   ],
   "note": ""
  },
  {
   "property": "C64",
   "status": "proved",
   "theorems": [
    "CoMMA.C64_call",
    "CoMMA.C64_greedy",
    "CoMMA.C64_unique",
    "CoMMA.C64_greedy_unique"
   ],
   "note": "C64_call: aspect ratios of the enlarged sets, exact arithmetic (hypotheses of C31). C64_greedy: aspect ratios updated as the code does, any number type with a total order."
  },
  {
   "property": "C65",
   "status": "proved",
   "theorems": [
    "CoMMA.C65_call",
    "CoMMA.C65_greedy",
    "CoMMA.C65_unique",
    "CoMMA.C65_any",
    "CoMMA.C65_some_order",
    "CoMMA.C65_some_order_shaped",
    "CoMMA.C65_history"
   ],
   "note": "C65_call: exact arithmetic (hypotheses of C31); C65_greedy: aspect ratios updated as the code does, any number type with a total order; C65_any: all thresholds; C65_some_order: all thresholds, an equivalence again, between the description and the calls with some iteration order; C65_history: orders that change during the call. No line may be one cell shorter than an odd limit (undefined behaviour, see C21); no coupling may be negative when lines are built."
  },
  {
   "property": "C66",
   "status": "proved",
   "theorems": [
    "CoMMA.C66_priority_order"
   ],
   "note": "All modes and correction thresholds. The one-point orders need weights that are not below the smallest positive number, for both vectors (see C33)."
  },
  {
   "property": "C67",
   "status": "partial",
   "theorems": [
    "CoMMA.C67_move_partial",
    "CoMMA.C67_distances_partial",
    "CoMMA.C67_move_counterexample"
   ],
   "note": "Missing: the two types of aspect ratio with the barycenter, for which it is false in exact arithmetic: the sum of the centers weighted by the volumes is divided by the number of cells."
  },
  {
   "property": "C68",
   "status": "proved",
   "theorems": [
    "CoMMA.C68_unused_data"
   ],
   "note": "All modes and correction thresholds; a call that builds lines uses weights and centers."
  },
  {
   "property": "C69",
   "status": "partial",
   "theorems": [
    "CoMMA.C69_units_partial",
    "CoMMA.C69_real_partial",
    "CoMMA.C69_powers_of_two_partial",
    "CoMMA.C69_units_counterexample"
   ],
   "note": "Missing: the two types of aspect ratio with the barycenter, for which it is false in exact arithmetic (counterexample). Over the reals every positive constant is a change of unit (real_unitChange, real_roots); in binary floating point with any number of digits and unlimited exponents every power of two is (rounded_unitChange, rounded_roots)."
  },
  {
   "property": "C70",
   "status": "partial",
   "theorems": [
    "CoMMA.C70_numbering_partial",
    "CoMMA.C70_lines_partial",
    "CoMMA.C70_numbering_any_partial",
    "CoMMA.C70_lines_any_partial",
    "CoMMA.C70_rounded_partial",
    "CoMMA.C70_rounded_lines_partial",
    "CoMMA.C70_rounded_any_partial",
    "CoMMA.C70_rounded_lines_any_partial",
    "CoMMA.C70_rounding_counterexample",
    "CoMMA.C70_neighbourhood_counterexample",
    "CoMMA.C70_ties_counterexample",
    "CoMMA.C70_rows_counterexample",
    "CoMMA.C70_line_ties_counterexample",
    "CoMMA.C70_threshold_counterexample"
   ],
   "note": "Missing because false, with counterexamples: neighbourhood priority on unconnected meshes, ties of priority, with lines or in double precision neighbours listed in another order, and ties in the growth of lines. With a threshold of correction above 1 the same results are possible, each for an order of iteration over unordered containers; with the same order it is false (C70_threshold_counterexample)."
  },
  {
   "property": "C71",
   "status": "proved",
   "theorems": [
    "CoMMA.C71_front",
    "CoMMA.C71_one_point",
    "CoMMA.C71_unconnected_counterexample"
   ],
   "note": "The counterexample shows that the mesh must be connected."
  },
  {
   "property": "C72",
   "status": "proved",
   "theorems": [
    "CoMMA.C72_no_overflow",
    "CoMMA.C72_call",
    "CoMMA.C72_returns",
    "CoMMA.C72_overflow_possible"
   ],
   "note": "The last theorem shows that a signed type smaller than the mesh can overflow although it holds all arguments."
  },
  {
   "property": "C73",
   "status": "partial",
   "theorems": [
    "CoMMA.C73_two_ends_partial",
    "CoMMA.C73_empty_mesh",
    "CoMMA.C73_counterexamples",
    "CoMMA.C73_accesses",
    "CoMMA.C73_failures"
   ],
   "note": "Proved for valid meshes with arbitrary parameters and well formed lines. False otherwise: the code does not check the sizes of the vectors, the offsets, the indices, the lines, nor that the mesh has a cell (counterexamples)."
  },
  {
   "property": "C74",
   "status": "proved",
   "theorems": [
    "CoMMA.C74_in_advance",
    "CoMMA.C74_described"
   ],
   "note": ""
  },
  {
   "property": "C75",
   "status": "proved",
   "theorems": [
    "CoMMA.C75_either_end"
   ],
   "note": "Priorities are compared exactly (no NaN)."
  },
  {
   "property": "C76",
   "status": "proved",
   "theorems": [
    "CoMMA.C76_parts",
    "CoMMA.C76_neighbourhood_counterexample",
    "CoMMA.C76_one_point_counterexample"
   ],
   "note": "Any ordered number type; with neighbourhood priority, or with one-point initialisation, it is false (counterexamples)."
  },
  {
   "property": "C77",
   "status": "partial",
   "theorems": [
    "CoMMA.C77_levels_partial",
    "CoMMA.C77_two_levels_partial",
    "CoMMA.C77_centers_counterexample",
    "CoMMA.C77_weights_counterexample"
   ],
   "note": "Neighbours, boundary faces, volumes (exact additions) and priorities (total order). False for centers and weights of faces (counterexamples), which is why it is partial."
  },
  {
   "property": "C78",
   "status": "proved",
   "theorems": [
    "CoMMA.C78_halves",
    "CoMMA.C78_levels",
    "CoMMA.C78_counterexamples"
   ],
   "note": "The counterexamples show that correction is needed and that lines must be excluded."
  },
  {
   "property": "C79",
   "status": "proved",
   "theorems": [
    "CoMMA.C79_volumes",
    "CoMMA.C79_total",
    "CoMMA.C79_levels",
    "CoMMA.C79_positive",
    "CoMMA.C79_exact",
    "CoMMA.C79_arithmetic",
    "CoMMA.C79_sqrt",
    "CoMMA.C79_order_matters"
   ],
   "note": "For the model of binary64 in Model/Double.lean (no NaN, one zero); C79_arithmetic shows that its operations are correctly rounded. C79_order_matters: sums depend on the numbering, within the bounds."
  },
  {
   "property": "C80",
   "status": "proved",
   "theorems": [
    "CoMMA.C80_features",
    "CoMMA.C80_relative",
    "CoMMA.C80_finite",
    "CoMMA.C80_cancellation"
   ],
   "note": "C80_relative gives the bounds as multiples of 2^-52. C80_finite: nothing overflows if the exact features are at most 2^900. C80_cancellation: the external weight cannot be bounded relative to itself, it may come out negative. Number of free faces of each cell (integers): C31."
  },
  {
   "property": "C81",
   "status": "proved",
   "theorems": [
    "CoMMA.C81_shape",
    "CoMMA.C81_ratio",
    "CoMMA.C81_error",
    "CoMMA.C81_order"
   ],
   "note": "C81_shape is about whole calls; C81_error gives the bound as a multiple of 2^-52. The two kinds with barycenter are not covered: the code does not divide by the volume there (C45), and one uses the square root."
  },
  {
   "property": "C82",
   "status": "proved",
   "theorems": [
    "CoMMA.C82_ends",
    "CoMMA.C82_outcomes",
    "CoMMA.C82_bounds"
   ],
   "note": "Running for ever is the failure fuel of the model; C82_bounds shows that the bounds given to the loops play no part. The model is that of a build with assertions."
  },
  {
   "property": "C83",
   "status": "proved",
   "theorems": [
    "CoMMA.C83_turned",
    "CoMMA.C83_turned_real",
    "CoMMA.C83_reversed_double",
    "CoMMA.C83_coarse_graph",
    "CoMMA.C83_levels",
    "CoMMA.C83_exchange_counterexample"
   ],
   "note": "C83_exchange_counterexample: in double precision exchanging two axes can change the coarse cells, by the order of the additions."
  },
  {
   "property": "C84",
   "status": "proved",
   "theorems": [
    "CoMMA.C84_angle",
    "CoMMA.C84_double",
    "CoMMA.C84_tested",
    "CoMMA.C84_corner"
   ],
   "note": "C84_angle is over the real numbers; C84_double is for doubles, up to 2^-30 radians, if neighbouring centers are between 2^-450 and 2^450 apart and have at most 16 coordinates; C84_tested is the test on the computed cosines for any numbers; C84_corner: without the option a line bends at right angles, with it the line stops."
  },
  {
   "property": "C85",
   "status": "proved",
   "theorems": [
    "CoMMA.C85_tagged",
    "CoMMA.C85_rounding"
   ],
   "note": "C85_rounding: the allowance for rounding cannot be left out, a ratio just below the threshold can be rounded to it."
  },
  {
   "property": "C86",
   "status": "proved",
   "theorems": [
    "CoMMA.C86_nearest",
    "CoMMA.C86_double"
   ],
   "note": "C86_nearest is over the real numbers, neighbours having different centers; C86_double is for doubles, up to 2^-40, if neighbouring centers are between 2^-450 and 2^450 apart and have at most 16 coordinates."
  },
  {
   "property": "C87",
   "status": "proved",
   "theorems": [
    "CoMMA.C87_isotropic",
    "CoMMA.C87_call",
    "CoMMA.C87_tight"
   ],
   "note": "C87_isotropic is for calls without lines, C87_call for calls with lines; C87_tight shows that the bound is reached."
  },
  {
   "property": "C88",
   "status": "proved",
   "theorems": [
    "CoMMA.C88_isotropic",
    "CoMMA.C88_call"
   ],
   "note": "C88_isotropic is for calls without lines, C88_call for calls with lines."
  },
  {
   "property": "C89",
   "status": "partial",
   "theorems": [
    "CoMMA.C89_whole_numbers_partial",
    "CoMMA.C89_barycenter_counterexample",
    "CoMMA.C89_distance_counterexample",
    "CoMMA.C89_direction_counterexample"
   ],
   "note": "False for the aspect ratios with a barycenter, for lines coupled by distance if two squared distances are in the ratio of 9 to 10, and for lines that keep their direction if two neighbours are straight on (counterexamples). Proved for the other eight types of aspect ratio, without lines, with given lines, with lines built from weights or from distances not in that ratio, and with lines that keep their direction if no cell sees two neighbours within 41 degrees or a turn within a hundred-millionth of the limit (as on Cartesian meshes)."
  },
  {
   "property": "C90",
   "status": "proved",
   "theorems": [
    "CoMMA.C90_at_most",
    "CoMMA.C90_not_sooner",
    "CoMMA.C90_at_least"
   ],
   "note": "C90_at_most and C90_not_sooner without correction, C90_at_least with correction of single cells and without lines."
  },
  {
   "property": "C91",
   "status": "proved",
   "theorems": [
    "CoMMA.C91_blocks",
    "CoMMA.C91_row",
    "CoMMA.C91_larger",
    "CoMMA.C91_thin_counterexample",
    "CoMMA.C91_nine_counterexample",
    "CoMMA.C91_two_counterexample"
   ],
   "note": "C91_larger: max_card from 4 to 8 with one iteration; counterexamples for max_card 9 and for max_card 5 with two iterations. The thin counterexample shows that the boundary faces of a mesh that is one cell thick must not be counted."
  },
  {
   "property": "C92",
   "status": "proved",
   "theorems": [
    "CoMMA.C92_blocks",
    "CoMMA.C92_larger",
    "CoMMA.C92_front_counterexample",
    "CoMMA.C92_iterations_counterexample",
    "CoMMA.C92_two_iterations",
    "CoMMA.C92_positive_counterexample"
   ],
   "note": "For the extended neighbourhood and one iteration (max_card from 8 to 166), and for two iterations in exact arithmetic with positive aspect ratios; the counterexamples show that other settings do not give the blocks."
  },
  {
   "property": "C93",
   "status": "proved",
   "theorems": [
    "CoMMA.C93_levels",
    "CoMMA.C93_blocks"
   ],
   "note": ""
  },
  {
   "property": "C94",
   "status": "proved",
   "theorems": [
    "CoMMA.C94_chains"
   ],
   "note": ""
  },
  {
   "property": "C95",
   "status": "proved",
   "theorems": [
    "CoMMA.C95_layers",
    "CoMMA.C95_weights"
   ],
   "note": "C95_layers is told by the strong couplings of any kind, C95_weights by the weights"
  },
  {
   "property": "C96",
   "status": "proved",
   "theorems": [
    "CoMMA.C96_followed",
    "CoMMA.C96_layers"
   ],
   "note": ""
  },
  {
   "property": "C97",
   "status": "proved",
   "theorems": [
    "CoMMA.C97_columns",
    "CoMMA.C97_doubles"
   ],
   "note": "C97_columns is told by the strong couplings in any arithmetic, C97_doubles by the data in doubles"
  },
  {
   "property": "C98",
   "status": "proved",
   "theorems": [
    "CoMMA.C98_columns",
    "CoMMA.C98_levels",
    "CoMMA.C98_weights"
   ],
   "note": "C98_columns: one level; C98_levels: several levels; C98_weights: one level, the strong couplings being told by the weights of the faces"
  },
  {
   "property": "C99",
   "status": "proved",
   "theorems": [
    "CoMMA.C99_from_the_wall"
   ],
   "note": "Excluded: columns one cell shorter than an odd maximum, for which the code reads past the end of the line (C21). The number of cells taken is takenCells in Spec/Columns.lean; it exceeds an even maximum by one if the column has one cell more and odd lengths are allowed (C21)."
  },
  {
   "property": "C100",
   "status": "proved",
   "theorems": [
    "CoMMA.C100_followed",
    "CoMMA.C100_columns",
    "CoMMA.C100_even",
    "CoMMA.C100_columns_even"
   ],
   "note": "Lines with fewer than 2^k cells may be present too, the claim is about the others. C96 is the case of multiples of 2^k, in which every stretch has exactly 2^k cells. The theorems _even are about calls that do not allow odd lines. Levels that mix the two settings are in C101."
  },
  {
   "property": "C101",
   "status": "proved",
   "theorems": [
    "CoMMA.C101_followed",
    "CoMMA.C101_columns",
    "CoMMA.C101_same_limit"
   ],
   "note": "Excluded: lines that are one cell shorter than an odd maximum at some level, for which the code reads past the end of the line (C21); NeverShort says so, and C101_same_limit tells when it holds with a constant maximum."
  },
  {
   "property": "C102",
   "status": "proved",
   "theorems": [
    "CoMMA.C102_tiles",
    "CoMMA.C102_twelve_counterexample",
    "CoMMA.C102_goal_counterexample",
    "CoMMA.C102_front_counterexample"
   ],
   "note": "The bounds on max_card cannot be weakened for b = 3; counterexamples for those and for the pure front neighbourhood. Not considered: more than one iteration, and blocks in space (cubes of 27 cells are not made: seen by running the model, not proved)."
  },
  {
   "property": "C103",
   "status": "proved",
   "theorems": [
    "CoMMA.C103_levels",
    "CoMMA.C103_blocks"
   ],
   "note": "Generalises C93, where all the widths are 2."
  },
  {
   "property": "C104",
   "status": "proved",
   "theorems": [
    "CoMMA.C104_reach"
   ],
   "note": "Without correction, as stated; LineCells says which coarse cells are made from lines."
  },
  {
   "property": "C105",
   "status": "proved",
   "theorems": [
    "CoMMA.C105_rows",
    "CoMMA.C105_sides_counterexample"
   ],
   "note": "Generalises the part of C91 on rows (max_card = 2). Counterexample for rows of cells in the plane whose sides along the row count as boundary faces."
  },
  {
   "property": "C106",
   "status": "proved",
   "theorems": [
    "CoMMA.C106_rows",
    "CoMMA.C106_left_counterexample"
   ],
   "note": "rowGroup gives the number of the group of a place of the row. Counterexample for correction when a single cell is left."
  },
  {
   "property": "C107",
   "status": "proved",
   "theorems": [
    "CoMMA.C107_levels",
    "CoMMA.C107_consecutive",
    "CoMMA.C107_one_cell"
   ],
   "note": "hl: each level is a call as in C106 on the mesh it receives, whose number of cells is known beforehand. upDiv is the quotient rounded up."
  },
  {
   "property": "C108",
   "status": "proved",
   "theorems": [
    "CoMMA.C108_rows",
    "CoMMA.C108_two_counterexample"
   ],
   "note": "With C106 this covers all rows when correction treats single cells. The counterexample: two cells left may be separated when the threshold is larger."
  },
  {
   "property": "C109",
   "status": "proved",
   "theorems": [
    "CoMMA.C109_levels",
    "CoMMA.C109_consecutive",
    "CoMMA.C109_one_cell",
    "CoMMA.C109_reached"
   ],
   "note": "The counterpart of C107 for calls with correction whose threshold is 1 or whose min_card is 2, as in C01."
  }
 ]
}