#!/usr/bin/env python3
"""Writes /verif/MANIFEST.json.  CLAIMS: property -> (status, [theorems], note)."""
import json, os, re
HERE = os.path.dirname(os.path.abspath(__file__))
ROOT = os.path.dirname(HERE)
CLAIMS = {
 "C01": ("proved", ["CoMMA.C01_total"], "Top-level call, isotropic runs. One-point initialisation needs priorities not below the smallest positive number (C33)."),
 "C02": ("proved", ["CoMMA.C02_contiguous"], ""),
 "C03": ("proved", ["CoMMA.C03_max_card", "CoMMA.C40_built", "CoMMA.C40_given", "CoMMA.C40_call"], ""),
 "C04": ("proved", ["CoMMA.C04_min_card", "CoMMA.C40_built", "CoMMA.C40_given", "CoMMA.C40_call", "CoMMA.C04_apart"], "C04_apart: two small coarse cells are never neighbours."),
 "C05": ("proved", ["CoMMA.C05_connected", "CoMMA.C40_built", "CoMMA.C40_given", "CoMMA.C40_call"], "Also after correction."),
 "C09": ("proved", ["CoMMA.C09_no_singletons", "CoMMA.C40_built", "CoMMA.C40_given", "CoMMA.C40_call"], ""),
 "C10": ("proved", ["CoMMA.C10_only_merges", "CoMMA.C05_connected", "CoMMA.C02_contiguous"], ""),
 "C29": ("proved", ["CoMMA.C29_compactness", "CoMMA.C29_any_mode"], "Graphs without repeated neighbours and self loops."),
 "C06": ("proved", ["CoMMA.C06_choose_new_seed", "CoMMA.C06_no_failure"],
   "All histories of pool calls, both pool kinds. One-point initialisation needs priorities not below the smallest positive number (C33)."),
 "C07": ("proved", ["CoMMA.C07_boundary_priority", "CoMMA.C07_call"], "Pool histories that start with initialize; whole calls in any mode."),
 "C08": ("proved", ["CoMMA.C08_full_initialisation", "CoMMA.C08_rebuild", "CoMMA.C08_ordered_update"], ""),
 "C13": ("proved", ["CoMMA.C13_wall_distance"], ""),
 "C14": ("partial", ["CoMMA.C14_filter_partial", "CoMMA.C14_counterexample"],
   "False as stated: a cell left with no edge is returned (counterexample). The exact set returned by the code is proved."),
 "C26": ("proved", ["CoMMA.C26_extended"], ""),
 "C27": ("proved", ["CoMMA.C27_pure_front"], ""),
 "C28": ("proved", ["CoMMA.C28_neighbourhood", "CoMMA.C28_exhaustive"], ""),
 "C25": ("proved", ["CoMMA.C25_comparators", "CoMMA.C25_second", "CoMMA.C25_sets"], ""),
 "C11": ("proved", ["CoMMA.C11_lines_kept", "CoMMA.C11_call"], "Built and provided lines, threshold 1."),
 "C19": ("proved", ["CoMMA.C19_lines"], "A negative threshold with weight coupling needs non-isolated compliant cells (otherwise the maximum of an empty range is read)."),
 "C20": ("proved", ["CoMMA.C20_pairs"], "Outside the overrun case of C21."),
 "C21": ("partial", ["CoMMA.C21_limit_partial", "CoMMA.C21_counterexample_limit", "CoMMA.C21_counterexample_overrun"],
   "False as stated: an even limit m, odd lengths allowed and a line of m+1 cells give m+1 cells; an odd limit m >= 3 and a line of m-1 cells run past the end of the line (counterexamples). Proved outside these two cases."),
 "C22": ("proved", ["CoMMA.C22_export"], ""),
 "C23": ("proved", ["CoMMA.C23_rejects", "CoMMA.C23_exactly", "CoMMA.C23_accepts", "CoMMA.C23_fc_to_cc_kept", "CoMMA.C23_unknown_aspect_late"], ""),
 "C24": ("proved", ["CoMMA.C24_clamped"], ""),
 "C30": ("proved", ["CoMMA.C30_isotropic", "CoMMA.C30_built", "CoMMA.C30_given", "CoMMA.C30_lines", "CoMMA.C30_isotropic_history", "CoMMA.C30_built_history", "CoMMA.C30_given_history", "CoMMA.C30_isotropic_one_order", "CoMMA.C30_built_one_order", "CoMMA.C30_given_one_order", "CoMMA.C30_call", "CoMMA.C30_call_one_order"], "Weights totally ordered by <; lines that do not overrun an odd limit (C21). C30_counterexample: with a threshold of 2 the outputs depend on the order. In the first theorems the order is a function of the place in the code and of the contents of the container; in those ending with _history each iteration has an order of its own; those ending with _one_order hold for all thresholds: whatever orders are met during a call, one order used all the time gives the same outputs."),
 "C31": ("proved", ["CoMMA.C31_features"], "Sums in exact arithmetic (FeatInput lists what each kind needs). Features not used by the kind of aspect ratio are reset to defaults by the code."),
 "C54": ("proved", ["CoMMA.C54_ratio", "CoMMA.C54_order"], "Hypotheses as in C31. The barycenter of the two kinds that use it is the one of the code, divided by the number of cells."),
 "C55": ("proved", ["CoMMA.C55_shape", "CoMMA.C55_any_mode"], "Hypotheses of C41 and C31."),
 "C56": ("proved", ["CoMMA.C56_isotropic", "CoMMA.C56_anisotropic", "CoMMA.C56_call", "CoMMA.C56_some_order"], "The order in which the cells of one small coarse cell are given away is not specified: it is that of an unordered container. C56_some_order: the specification leaves nothing else open."),
 "C32": ("proved", ["CoMMA.C32_structured", "CoMMA.C32_defaults"], ""),
 "C34": ("proved", ["CoMMA.C34_tagging"], "The unused argument `preserving` is 0, as in the library."),
 "C12": ("partial", ["CoMMA.C12_isotropic_partial", "CoMMA.C12_anisotropic_partial", "CoMMA.C12_large_partial", "CoMMA.C12_large_anisotropic_partial", "CoMMA.C12_large_history_partial", "CoMMA.C12_counterexample", "CoMMA.C12_split", "CoMMA.C12_collision"], "Full claim false: an index can be used for two unconnected sets of cells (C12_collision); a coarse cell absorbed in part is removed and its other fine cells keep a stale index (C12_counterexample: indices with a gap); a small cell may be split between receivers (C12_split). Proved for all thresholds when each small coarse cell can be absorbed completely or not at all; for every mesh and threshold correction does not fail and keeps large and line coarse cells. C56 describes the result exactly."),
 "C39": ("proved", ["CoMMA.C39_isotropic", "CoMMA.C39_anisotropic", "CoMMA.C39_call"], ""),
 "C40": ("proved", ["CoMMA.C40_built", "CoMMA.C40_given", "CoMMA.C40_call"], "C40_call: every call with lines, these being described by the specification only. Also the size, connectivity and singleton properties of the coarse cells that are not on a line."),
 "C38": ("proved", ["CoMMA.C38_best_candidate"], "With look-ahead (fc_choice_iter > 1) as done by the code."),
 "C41": ("partial", ["CoMMA.C41_greedy_partial", "CoMMA.C41_any_mode_partial", "CoMMA.C41_counterexample"],
   "False as stated: the code compares the number of external faces minus the number of cells (counterexample). Proved with that cost, for graphs without repeated neighbours and self loops and totally ordered weights."),
 "C42": ("proved", ["CoMMA.C42_run"], "Graphs without repeated neighbours and self loops, totally ordered weights."),
 "C33": ("partial", ["CoMMA.C33_one_point_partial", "CoMMA.C33_counterexample"],
   "False as stated: a priority below the smallest positive number makes the initialisation queue a non-existing cell (counterexample). Proved for the other weights."),
 "C15": ("proved", ["CoMMA.C15_volumes", "CoMMA.C15_total"], "Conservation of the total in exact (commutative, associative) arithmetic; the sums per cell are those of the code, in its order."),
 "C16": ("proved", ["CoMMA.C16_adjacency"], ""),
 "C17": ("partial", ["CoMMA.C17_weights_partial", "CoMMA.C17_counterexample", "CoMMA.C17_out_of_bounds"],
   "False as stated: weights are read at the index of the neighbouring cell (counterexample), which may be past the end of the vector (second counterexample). Proved: what the code sums, and the claim when the weights read agree with those of the edges."),
 "C18": ("proved", ["CoMMA.C18_coarse_mesh", "CoMMA.C18_levels", "CoMMA.C18_gap", "CoMMA.C18_threshold_counterexample"], "Without correction or with correction of single cells. C18_gap and the counterexample: larger thresholds may leave an index without cells, of which build_coarse_graph makes an isolated coarse cell."),
 "C43": ("proved", ["CoMMA.C43_boundary"], ""),
 "C44": ("partial", ["CoMMA.C44_priority_partial", "CoMMA.C44_counterexample"],
   "False as stated: the maximum starts at the smallest positive number (counterexample). Proved if one cell reaches that number."),
 "C45": ("partial", ["CoMMA.C45_centers_partial", "CoMMA.C45_counterexample"],
   "False as stated: the sum is divided by the number of cells, not by the volume (counterexample). Proved: the value computed."),
 "C46": ("proved", ["CoMMA.C46_lines_next"], ""),
 "C47": ("proved", ["CoMMA.C47_connected"], ""),
 "C48": ("proved", ["CoMMA.C48_lines_exact", "CoMMA.C48_call"], ""),
 "C49": ("proved", ["CoMMA.C49_links"], ""),
 "C50": ("proved", ["CoMMA.C50_no_pair_left"], ""),
 "C35": ("partial", ["CoMMA.C35_partial", "CoMMA.C35_history", "CoMMA.C35_no_edges", "CoMMA.C35_stale_marks"], "Missing: graphs with two cells or more and no edge (undefined behaviour, C35_no_edges) and histories with searches by the user (wrong answer, C35_stale_marks; C35_history gives the exact answer for every history)."),
 "C36": ("partial", ["CoMMA.C36_insert_partial", "CoMMA.C36_remove_partial", "CoMMA.C36_insert_never", "CoMMA.C36_remove_ub"], "Violated whenever a node with neighbours is inserted (C36_insert_never, for all graphs) or removed (C36_remove_ub, for all graphs). Proved for nodes without neighbours; the counters of the subgraph are never updated."),
 "C37": ("partial", ["CoMMA.C37_queue", "CoMMA.C37_priority_pair", "CoMMA.C37_bimap_partial", "CoMMA.C37_bimap_reuse", "CoMMA.C37_bimap_dangling", "CoMMA.C37_tree_partial", "CoMMA.C37_tree_only_son"], "Queue and Priority_Pair in full. Bimap: violated when an insertion reuses an element of another pair or a new name is in use. Tree: deleting the only son is undefined behaviour."),
 "C52": ("proved", ["CoMMA.C52_local_graph"], ""),
 "C53": ("partial", ["CoMMA.C53_partial", "CoMMA.C53_any_mode_partial", "CoMMA.C53_singleton", "CoMMA.C53_disconnected"], "Isotropic calls, coarse cells with two cells or more. Violated for coarse cells with one cell; and for sets of cells that are not connected, which isotropic calls do not build."),
 "C58": ("proved", ["CoMMA.C58_shrinks", "CoMMA.C58_ratio", "CoMMA.C58_ratio_lines", "CoMMA.C58_ends"], ""),
 "C59": ("proved", ["CoMMA.C59_lines_followed"], ""),
 "C60": ("proved", ["CoMMA.C60_isotropic", "CoMMA.C60_given", "CoMMA.C60_built", "CoMMA.C60_result", "CoMMA.C60_compliant"], ""),
 "C61": ("proved", ["CoMMA.C61_steps", "CoMMA.C61_start", "CoMMA.C61_choice_unique", "CoMMA.C61_update_unique", "CoMMA.C61_start_unique"], ""),
 "C62": ("partial", ["CoMMA.C62_partial", "CoMMA.C62_pool", "CoMMA.C62_call"], "False as stated: the search stops at the first free cell with at least as many boundary faces as the level in use (counterexamples for a pool and for a whole call on a mesh in two parts). Proved when no free cell has more faces than the level in use; otherwise the exact level."),
 "C63": ("proved", ["CoMMA.C63_candidates", "CoMMA.C63_unique"], ""),
 "C64": ("proved", ["CoMMA.C64_call", "CoMMA.C64_greedy", "CoMMA.C64_unique", "CoMMA.C64_greedy_unique"], "C64_call: aspect ratios of the enlarged sets, exact arithmetic (hypotheses of C31). C64_greedy: aspect ratios updated as the code does, any number type with a total order."),
 "C65": ("proved", ["CoMMA.C65_call", "CoMMA.C65_greedy", "CoMMA.C65_unique", "CoMMA.C65_any", "CoMMA.C65_some_order", "CoMMA.C65_some_order_shaped", "CoMMA.C65_history"], "C65_call: exact arithmetic (hypotheses of C31); C65_greedy: aspect ratios updated as the code does, any number type with a total order; C65_any: all thresholds; C65_some_order: all thresholds, an equivalence again, between the description and the calls with some iteration order; C65_history: orders that change during the call. No line may be one cell shorter than an odd limit (undefined behaviour, see C21); no coupling may be negative when lines are built."),
 "C66": ("proved", ["CoMMA.C66_priority_order"], "All modes and correction thresholds. The one-point orders need weights that are not below the smallest positive number, for both vectors (see C33)."),
 "C67": ("partial", ["CoMMA.C67_move_partial", "CoMMA.C67_distances_partial", "CoMMA.C67_move_counterexample"], "Missing: the two types of aspect ratio with the barycenter, for which it is false in exact arithmetic: the sum of the centers weighted by the volumes is divided by the number of cells."),
 "C68": ("proved", ["CoMMA.C68_unused_data"], "All modes and correction thresholds; a call that builds lines uses weights and centers."),
 "C69": ("partial", ["CoMMA.C69_units_partial", "CoMMA.C69_real_partial", "CoMMA.C69_powers_of_two_partial", "CoMMA.C69_units_counterexample"], "Missing: the two types of aspect ratio with the barycenter, for which it is false in exact arithmetic (counterexample). Over the reals every positive constant is a change of unit (real_unitChange, real_roots); in binary floating point with any number of digits and unlimited exponents every power of two is (rounded_unitChange, rounded_roots)."),
 "C70": ("partial", ["CoMMA.C70_numbering_partial", "CoMMA.C70_lines_partial", "CoMMA.C70_numbering_any_partial", "CoMMA.C70_lines_any_partial", "CoMMA.C70_rounded_partial", "CoMMA.C70_rounded_lines_partial", "CoMMA.C70_rounded_any_partial", "CoMMA.C70_rounded_lines_any_partial", "CoMMA.C70_rounding_counterexample", "CoMMA.C70_neighbourhood_counterexample", "CoMMA.C70_ties_counterexample", "CoMMA.C70_rows_counterexample", "CoMMA.C70_line_ties_counterexample", "CoMMA.C70_threshold_counterexample"], "Missing because false, with counterexamples: neighbourhood priority on unconnected meshes, ties of priority, with lines or in double precision neighbours listed in another order, and ties in the growth of lines. With a threshold of correction above 1 the same results are possible, each for an order of iteration over unordered containers; with the same order it is false (C70_threshold_counterexample)."),
 "C71": ("proved", ["CoMMA.C71_front", "CoMMA.C71_one_point", "CoMMA.C71_unconnected_counterexample"], "The counterexample shows that the mesh must be connected."),
 "C72": ("proved", ["CoMMA.C72_no_overflow", "CoMMA.C72_call", "CoMMA.C72_returns", "CoMMA.C72_overflow_possible"], "The last theorem shows that a signed type smaller than the mesh can overflow although it holds all arguments."),
 "C73": ("partial", ["CoMMA.C73_two_ends_partial", "CoMMA.C73_empty_mesh", "CoMMA.C73_counterexamples", "CoMMA.C73_accesses", "CoMMA.C73_failures"], "Proved for valid meshes with arbitrary parameters and well formed lines. False otherwise: the code does not check the sizes of the vectors, the offsets, the indices, the lines, nor that the mesh has a cell (counterexamples)."),
 "C74": ("proved", ["CoMMA.C74_in_advance", "CoMMA.C74_described"], ""),
 "C75": ("proved", ["CoMMA.C75_either_end"], "Priorities are compared exactly (no NaN)."),
 "C76": ("proved", ["CoMMA.C76_parts", "CoMMA.C76_neighbourhood_counterexample", "CoMMA.C76_one_point_counterexample"], "Any ordered number type; with neighbourhood priority, or with one-point initialisation, it is false (counterexamples)."),
 "C77": ("partial", ["CoMMA.C77_levels_partial", "CoMMA.C77_two_levels_partial", "CoMMA.C77_centers_counterexample", "CoMMA.C77_weights_counterexample"], "Neighbours, boundary faces, volumes (exact additions) and priorities (total order). False for centers and weights of faces (counterexamples), which is why it is partial."),
 "C78": ("proved", ["CoMMA.C78_halves", "CoMMA.C78_levels", "CoMMA.C78_counterexamples"], "The counterexamples show that correction is needed and that lines must be excluded."),
 "C79": ("proved", ["CoMMA.C79_volumes", "CoMMA.C79_total", "CoMMA.C79_levels", "CoMMA.C79_positive", "CoMMA.C79_exact", "CoMMA.C79_arithmetic", "CoMMA.C79_sqrt", "CoMMA.C79_order_matters"], "For the model of binary64 in Model/Double.lean (no NaN, one zero); C79_arithmetic shows that its operations are correctly rounded. C79_order_matters: sums depend on the numbering, within the bounds."),
 "C80": ("proved", ["CoMMA.C80_features", "CoMMA.C80_relative", "CoMMA.C80_finite", "CoMMA.C80_cancellation"], "C80_relative gives the bounds as multiples of 2^-52. C80_finite: nothing overflows if the exact features are at most 2^900. C80_cancellation: the external weight cannot be bounded relative to itself, it may come out negative. Number of free faces of each cell (integers): C31."),
 "C81": ("proved", ["CoMMA.C81_shape", "CoMMA.C81_ratio", "CoMMA.C81_error", "CoMMA.C81_order"], "C81_shape is about whole calls; C81_error gives the bound as a multiple of 2^-52. The two kinds with barycenter are not covered: the code does not divide by the volume there (C45), and one uses the square root."),
 "C82": ("proved", ["CoMMA.C82_ends", "CoMMA.C82_outcomes", "CoMMA.C82_bounds"], "Running for ever is the failure fuel of the model; C82_bounds shows that the bounds given to the loops play no part. The model is that of a build with assertions."),
 "C83": ("proved", ["CoMMA.C83_turned", "CoMMA.C83_turned_real", "CoMMA.C83_reversed_double", "CoMMA.C83_coarse_graph", "CoMMA.C83_levels", "CoMMA.C83_exchange_counterexample"], "C83_exchange_counterexample: in double precision exchanging two axes can change the coarse cells, by the order of the additions."),
 "C84": ("proved", ["CoMMA.C84_angle", "CoMMA.C84_double", "CoMMA.C84_tested", "CoMMA.C84_corner"], "C84_angle is over the real numbers; C84_double is for doubles, up to 2^-30 radians, if neighbouring centers are between 2^-450 and 2^450 apart and have at most 16 coordinates; C84_tested is the test on the computed cosines for any numbers; C84_corner: without the option a line bends at right angles, with it the line stops."),
 "C85": ("proved", ["CoMMA.C85_tagged", "CoMMA.C85_rounding"], "C85_rounding: the allowance for rounding cannot be left out, a ratio just below the threshold can be rounded to it."),
 "C86": ("proved", ["CoMMA.C86_nearest", "CoMMA.C86_double"], "C86_nearest is over the real numbers, neighbours having different centers; C86_double is for doubles, up to 2^-40, if neighbouring centers are between 2^-450 and 2^450 apart and have at most 16 coordinates."),
 "C87": ("proved", ["CoMMA.C87_isotropic", "CoMMA.C87_call", "CoMMA.C87_tight"], "C87_isotropic is for calls without lines, C87_call for calls with lines; C87_tight shows that the bound is reached."),
 "C88": ("proved", ["CoMMA.C88_isotropic", "CoMMA.C88_call"], "C88_isotropic is for calls without lines, C88_call for calls with lines."),
 "C89": ("partial", ["CoMMA.C89_whole_numbers_partial", "CoMMA.C89_barycenter_counterexample", "CoMMA.C89_distance_counterexample", "CoMMA.C89_direction_counterexample"], "False for the aspect ratios with a barycenter, for lines coupled by distance if two squared distances are in the ratio of 9 to 10, and for lines that keep their direction if two neighbours are straight on (counterexamples). Proved for the other eight types of aspect ratio, without lines, with given lines, with lines built from weights or from distances not in that ratio, and with lines that keep their direction if no cell sees two neighbours within 41 degrees or a turn within a hundred-millionth of the limit (as on Cartesian meshes)."),
 "C90": ("proved", ["CoMMA.C90_at_most", "CoMMA.C90_not_sooner", "CoMMA.C90_at_least"], "C90_at_most and C90_not_sooner without correction, C90_at_least with correction of single cells and without lines."),
 "C91": ("proved", ["CoMMA.C91_blocks", "CoMMA.C91_row", "CoMMA.C91_larger", "CoMMA.C91_thin_counterexample", "CoMMA.C91_nine_counterexample", "CoMMA.C91_two_counterexample"], "C91_larger: max_card from 4 to 8 with one iteration; counterexamples for max_card 9 and for max_card 5 with two iterations. The thin counterexample shows that the boundary faces of a mesh that is one cell thick must not be counted."),
 "C92": ("proved", ["CoMMA.C92_blocks", "CoMMA.C92_larger", "CoMMA.C92_front_counterexample", "CoMMA.C92_iterations_counterexample", "CoMMA.C92_two_iterations", "CoMMA.C92_positive_counterexample"], "For the extended neighbourhood and one iteration (max_card from 8 to 166), and for two iterations in exact arithmetic with positive aspect ratios; the counterexamples show that other settings do not give the blocks."),
 "C93": ("proved", ["CoMMA.C93_levels", "CoMMA.C93_blocks"], ""),
 "C94": ("proved", ["CoMMA.C94_chains"], ""),
 "C95": ("proved", ["CoMMA.C95_layers", "CoMMA.C95_weights"], "C95_layers is told by the strong couplings of any kind, C95_weights by the weights"),
 "C96": ("proved", ["CoMMA.C96_followed", "CoMMA.C96_layers"], ""),
 "C97": ("proved", ["CoMMA.C97_columns", "CoMMA.C97_doubles"], "C97_columns is told by the strong couplings in any arithmetic, C97_doubles by the data in doubles"),
 "C98": ("proved", ["CoMMA.C98_columns", "CoMMA.C98_levels", "CoMMA.C98_weights"], "C98_columns: one level; C98_levels: several levels; C98_weights: one level, the strong couplings being told by the weights of the faces"),
 "C99": ("proved", ["CoMMA.C99_from_the_wall"], "Excluded: columns one cell shorter than an odd maximum, for which the code reads past the end of the line (C21). The number of cells taken is takenCells in Spec/Columns.lean; it exceeds an even maximum by one if the column has one cell more and odd lengths are allowed (C21)."),
 "C100": ("proved", ["CoMMA.C100_followed", "CoMMA.C100_columns", "CoMMA.C100_even", "CoMMA.C100_columns_even"], "Lines with fewer than 2^k cells may be present too, the claim is about the others. C96 is the case of multiples of 2^k, in which every stretch has exactly 2^k cells. The theorems _even are about calls that do not allow odd lines. Levels that mix the two settings are in C101."),
 "C101": ("proved", ["CoMMA.C101_followed", "CoMMA.C101_columns", "CoMMA.C101_same_limit"], "Excluded: lines that are one cell shorter than an odd maximum at some level, for which the code reads past the end of the line (C21); NeverShort says so, and C101_same_limit tells when it holds with a constant maximum."),
 "C102": ("proved", ["CoMMA.C102_tiles", "CoMMA.C102_twelve_counterexample", "CoMMA.C102_goal_counterexample", "CoMMA.C102_front_counterexample"], "The bounds on max_card cannot be weakened for b = 3; counterexamples for those and for the pure front neighbourhood. Not considered: more than one iteration, and blocks in space (cubes of 27 cells are not made: seen by running the model, not proved)."),
 "C103": ("proved", ["CoMMA.C103_levels", "CoMMA.C103_blocks"], "Generalises C93, where all the widths are 2."),
 "C104": ("proved", ["CoMMA.C104_reach"], "Without correction, as stated; LineCells says which coarse cells are made from lines."),
 "C105": ("proved", ["CoMMA.C105_rows", "CoMMA.C105_sides_counterexample"], "Generalises the part of C91 on rows (max_card = 2). Counterexample for rows of cells in the plane whose sides along the row count as boundary faces."),
 "C106": ("proved", ["CoMMA.C106_rows", "CoMMA.C106_left_counterexample"], "rowGroup gives the number of the group of a place of the row. Counterexample for correction when a single cell is left."),
 "C107": ("proved", ["CoMMA.C107_levels", "CoMMA.C107_consecutive", "CoMMA.C107_one_cell"], "hl: each level is a call as in C106 on the mesh it receives, whose number of cells is known beforehand. upDiv is the quotient rounded up."),
 "C108": ("proved", ["CoMMA.C108_rows", "CoMMA.C108_two_counterexample"], "With C106 this covers all rows when correction treats single cells. The counterexample: two cells left may be separated when the threshold is larger."),
 "C109": ("proved", ["CoMMA.C109_levels", "CoMMA.C109_consecutive", "CoMMA.C109_one_cell", "CoMMA.C109_reached"], "The counterpart of C107 for calls with correction whose threshold is 1 or whose min_card is 2, as in C01."),
 "C51": ("proved", ["CoMMA.C51_lines_unique"], ""),
 "C57": ("proved", ["CoMMA.C57_same", "CoMMA.C57_defaults", "CoMMA.C57_order_refused", "CoMMA.C57_aspect_refused", "CoMMA.C57_coupling_other", "CoMMA.C57_nbh_other", "CoMMA.C57_wall_distance", "CoMMA.C57_filter", "CoMMA.C57_coarse_graph"], "Conversions of pybind11 are not modelled."),
}
props = [json.loads(l) for l in open(os.path.join(ROOT, "properties.jsonl"))]
src = ""
for d, _, fs in os.walk(os.path.join(ROOT, "lean/Verif")):
    for f in fs:
        src += open(os.path.join(d, f)).read()
claims = []
for p in props:
    assert p["id"] in CLAIMS, p["id"]
    if True:
        st, th, note = CLAIMS[p["id"]]
        for t in th:
            assert re.search(r"theorem %s\b" % re.escape(t.split(".")[-1]), src), t
        claims.append({"property": p["id"], "status": st, "theorems": th, "note": note})
json.dump({"claims": claims}, open(os.path.join(ROOT, "MANIFEST.json"), "w"), indent=1)
