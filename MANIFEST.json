{
 "claims": [
  {
   "property": "C01",
   "status": "proved",
   "theorems": [
    "Verif.Handles.C01_roundtrip",
    "Verif.Handles.C01_injective",
    "Verif.Handles.C01_valid",
    "Verif.Handles.C01_ordered",
    "Verif.Handles.C01_percompose"
   ],
   "note": ""
  },
  {
   "property": "C02",
   "status": "proved",
   "theorems": [
    "Verif.Markers.C02_create_fresh",
    "Verif.Markers.C02_createPrivate_fresh",
    "Verif.Markers.C02_create_succeeds_iff",
    "Verif.Markers.C02_createPrivate_succeeds_iff"
   ],
   "note": ""
  },
  {
   "property": "C03",
   "status": "proved",
   "theorems": [
    "Verif.Markers.C03_get_defined",
    "Verif.Markers.C03_set",
    "Verif.Markers.C03_rem",
    "Verif.Markers.C03_private"
   ],
   "note": ""
  },
  {
   "property": "C04",
   "status": "proved",
   "theorems": [
    "Verif.Markers.C04_release",
    "Verif.Markers.C04_releasePrivate",
    "Verif.Markers.C04_reuse",
    "Verif.Markers.C04_created_unset"
   ],
   "note": ""
  },
  {
   "property": "C05",
   "status": "partial",
   "theorems": [
    "Verif.Containers.C05_array_history_partial",
    "Verif.Containers.C05_constructors",
    "Verif.Containers.C05_eraseRange_fails",
    "Verif.Containers.C05_eraseEmptyRange_fails",
    "Verif.Containers.C05_replaceShrink_fails",
    "Verif.Containers.C05_pushBackSelf_fails"
   ],
   "note": "Full history refinement except range erase, shrinking replace and aliased push_back, for which the code violates the property (the _fails theorems)."
  },
  {
   "property": "C06",
   "status": "partial",
   "theorems": [
    "Verif.Containers.C06_chunk_array",
    "Verif.Containers.C06_resize",
    "Verif.Containers.C06_bulk_partial",
    "Verif.Containers.C06_bulk_preserves",
    "Verif.Containers.C06_bulk_fails",
    "Verif.Containers.C06_linked_array"
   ],
   "note": "chunk_array: full. chunk_bulk_array: full preservation; zero fill holds for histories that never shrink and is false otherwise (C06_bulk_fails)."
  },
  {
   "property": "C07",
   "status": "proved",
   "theorems": [
    "Verif.Storage.C07_slots",
    "Verif.Storage.C07_create",
    "Verif.Storage.C07_destroy"
   ],
   "note": ""
  },
  {
   "property": "C08",
   "status": "proved",
   "theorems": [
    "Verif.Storage.C08_reorder"
   ],
   "note": ""
  },
  {
   "property": "C09",
   "status": "proved",
   "theorems": [
    "Verif.Storage.C09_columns",
    "Verif.Storage.C09_write",
    "Verif.Storage.C09_delData",
    "Verif.Storage.C09_haveData",
    "Verif.Storage.C09_createTag",
    "Verif.Storage.C09_deleteTag"
   ],
   "note": ""
  },
  {
   "property": "C10",
   "status": "partial",
   "theorems": [
    "Verif.Storage.C10_partial",
    "Verif.Storage.C10_fails"
   ],
   "note": "the full property is false of the code (C10_fails: a tag deleted from a type where it was sparse and created again as dense keeps the sparse flag); C10_partial proves it when no such type is re-requested dense"
  },
  {
   "property": "C11",
   "status": "partial",
   "theorems": [
    "Verif.Topology.C11_mirror_partial",
    "Verif.Topology.C11_types",
    "Verif.Topology.C11_connect_fails"
   ],
   "note": "proved for every history with a defined outcome; Connect/Disconnect(adjacent) of parts of cells with cell-node connections (the default) has no defined outcome in the code (C11_connect_fails)"
  },
  {
   "property": "C12",
   "status": "proved",
   "theorems": [
    "Verif.Topology.C12_adjacency"
   ],
   "note": ""
  },
  {
   "property": "C13",
   "status": "proved",
   "theorems": [
    "Verif.Topology.C13_adjacency"
   ],
   "note": ""
  },
  {
   "property": "C14",
   "status": "proved",
   "theorems": [
    "Verif.Topology.C14_find",
    "Verif.Topology.C14_create_again"
   ],
   "note": ""
  },
  {
   "property": "C15",
   "status": "partial",
   "theorems": [
    "Verif.Sets.C15_unite_partial",
    "Verif.Sets.C15_unite_fails",
    "Verif.Sets.C15_unite_empty",
    "Verif.Sets.C15_subtract",
    "Verif.Sets.C15_intersect",
    "Verif.Sets.C15_set_union",
    "Verif.Sets.C15_set_difference",
    "Verif.Sets.C15_set_intersection"
   ],
   "note": "ElementArray::Subtract/Intersect and ElementSet::Union/Difference/Intersection: full. ElementArray::Unite keeps repetitions of the argument when the array is empty (C15_unite_fails); proved in all other cases."
  },
  {
   "property": "C16",
   "status": "partial",
   "theorems": [
    "Verif.Sets.C16_histories_partial",
    "Verif.Sets.C16_self_fails",
    "Verif.Sets.C16_erase"
   ],
   "note": "every history except Subtract of a set with itself (through the private marker), which leaves the marker set and spoils later operations (C16_self_fails)"
  },
  {
   "property": "C17",
   "status": "partial",
   "theorems": [
    "Verif.Sets.C17_unsorted_partial",
    "Verif.Sets.C17_repeated_fails",
    "Verif.Sets.C17_unite_fails",
    "Verif.Sets.C17_sorted_partial",
    "Verif.Sets.C17_sorted_fails"
   ],
   "note": "unsorted sets: inputs without repetitions and invalid handles; the code adds repeated input elements twice (C17_repeated_fails) and reads marks of invalid handles in Unite (C17_unite_fails). Sets sorted by handles: exact characterisation, elements above the greatest new element are lost if that is in the set already (C17_sorted_fails)"
  },
  {
   "property": "C18",
   "status": "partial",
   "theorems": [
    "Verif.Sets.C18_unsorted_fails",
    "Verif.Sets.C18_sorted_partial",
    "Verif.Sets.C18_sorted_fails"
   ],
   "note": "false of the code for unsorted sets with holes (C18_unsorted_fails) and for sorted sets with two adjacent holes (C18_sorted_fails); proved where the code does what it should"
  },
  {
   "property": "C19",
   "status": "partial",
   "theorems": [
    "Verif.Sets.C19_forest_partial",
    "Verif.Sets.C19_operations_partial",
    "Verif.Sets.C19_count_partial",
    "Verif.Sets.C19_readd_fails"
   ],
   "note": "all histories in which a removed set is not re-added while it keeps a stale sibling link (C19_readd_fails)"
  },
  {
   "property": "C20",
   "status": "proved",
   "theorems": [
    "Verif.Sort.C20_sort_handles",
    "Verif.Sort.C20_invalid_handles"
   ],
   "note": ""
  },
  {
   "property": "C21",
   "status": "partial",
   "theorems": [
    "Verif.Sort.C21_partial",
    "Verif.Sort.C21_fails"
   ],
   "note": "true unless the array is long and mixes negative with other IDs, in which case it is always false (C21_fails)"
  },
  {
   "property": "C22",
   "status": "partial",
   "theorems": [
    "Verif.Iterators.C22_begin_end",
    "Verif.Iterators.C22_expected_meaning",
    "Verif.Iterators.C22_number_of_partial",
    "Verif.Iterators.C22_swap_fails",
    "Verif.Iterators.C22_end_modification",
    "Verif.Iterators.C22_next_handle"
   ],
   "note": "iteration and NextHandle: full; NumberOf proved for histories without SwapModification, after which the count of hidden elements is wrong (C22_swap_fails)"
  },
  {
   "property": "C23",
   "status": "partial",
   "theorems": [
    "Verif.Iterators.C23_single_type_partial",
    "Verif.Iterators.C23_deleted_fails",
    "Verif.Iterators.C23_hidden_fails",
    "Verif.Iterators.C23_types_fails",
    "Verif.Iterators.C23_prev_handle_partial",
    "Verif.Iterators.C23_prev_handle_fails",
    "Verif.Iterators.C23_prev_handle_mesh_fails"
   ],
   "note": "proved for one element type whose number 0 exists and is visible; in general reverse iteration yields a deleted or hidden number 0 (C23_deleted_fails, C23_hidden_fails) and skips the last element of lower types (C23_types_fails); PrevHandle never steps to a node or from the mesh to a set (C23_prev_handle_fails, C23_prev_handle_mesh_fails)"
  },
  {
   "property": "C24",
   "status": "proved",
   "theorems": [
    "Verif.Sparse.C24_access",
    "Verif.Sparse.C24_history",
    "Verif.Sparse.C24_rowvec",
    "Verif.Sparse.C24_rowvec_out_of_range"
   ],
   "note": ""
  },
  {
   "property": "C25",
   "status": "proved",
   "theorems": [
    "Verif.Sparse.C25_merge",
    "Verif.Sparse.C25_merge_sums",
    "Verif.Sparse.C25_is_sorted",
    "Verif.Sparse.C25_repeated_columns"
   ],
   "note": ""
  },
  {
   "property": "C26",
   "status": "proved",
   "theorems": [
    "Verif.Sparse.C26_accumulate",
    "Verif.Sparse.C26_clear",
    "Verif.Sparse.C26_read",
    "Verif.Sparse.C26_sorted_partial",
    "Verif.Sparse.C26_sorted_fails",
    "Verif.Sparse.C26_push_repeated_fails"
   ],
   "note": "C26_accumulate, C26_clear and C26_read are the property. The other theorems are about what it excludes: a sorted accumulator retrieves a sorted row only if no column below the interval is used (C26_sorted_partial, C26_sorted_fails), and pushing a row with a repeated column loses entries (C26_push_repeated_fails)."
  },
  {
   "property": "C27",
   "status": "proved",
   "theorems": [
    "Verif.Sparse.C27_matvec",
    "Verif.Sparse.C27_matvec_transpose",
    "Verif.Sparse.C27_adjoint"
   ],
   "note": ""
  },
  {
   "property": "C28",
   "status": "proved",
   "theorems": [
    "Verif.Sparse.C28_partition"
   ],
   "note": ""
  },
  {
   "property": "C29",
   "status": "partial",
   "theorems": [
    "Verif.Autodiff.C29_value",
    "Verif.Autodiff.C29_gather_partial",
    "Verif.Autodiff.C29_gradient_partial",
    "Verif.Autodiff.C29_partial_derivatives",
    "Verif.Autodiff.C29_pow_fails"
   ],
   "note": "proved for all expression trees at all points where each operation is differentiable, except pow at base 0 with a constant exponent 1 (C29_pow_fails: the code gives derivative 0) and pow(l,r) with variable exponent at base 0; with and without an accumulator"
  },
  {
   "property": "C30",
   "status": "partial",
   "theorems": [
    "Verif.Autodiff.C30_programs_partial",
    "Verif.Autodiff.C30_self_fails"
   ],
   "note": "proved for all programs in which a variable changed by +=, -=, /= or assignment through a reference is not itself a factor of a product in the same statement; in that case the code is wrong (C30_self_fails)"
  },
  {
   "property": "C31",
   "status": "partial",
   "theorems": [
    "Verif.Autodiff.C31_expression_partial",
    "Verif.Autodiff.C31_programs_partial",
    "Verif.Autodiff.C31_getVariable",
    "Verif.Autodiff.C31_reciprocal_fails",
    "Verif.Autodiff.C31_exp_fails",
    "Verif.Autodiff.C31_pow_fails",
    "Verif.Autodiff.C31_product_fails"
   ],
   "note": "Expressions and whole programs (including +=, -=, *= c, /= c) over constants, unknowns, variables, affine operations, abs, sin, cos, sqrt, exp and log where the code is right, products, sums, conditions; GetVariable. The code is wrong or fails for reciprocals, negated or nested exp, pow with constant exponent and products with a factor without derivatives (_fails theorems), for log of a non-linear argument and for function_expression; division, soft_*, pow, atan2 throw."
  },
  {
   "property": "C32",
   "status": "proved",
   "theorems": [
    "Verif.Table.C32_interpolation",
    "Verif.Table.C32_nodes",
    "Verif.Table.C32_single_node_fails"
   ],
   "note": "all tables with at least two nodes, over any linearly ordered field; GetBoth as well. A one-node table reads outside the arrays (C32_single_node_fails); the property excludes it."
  },
  {
   "property": "C33",
   "status": "partial",
   "theorems": [
    "Verif.Unknowns.C33_enumerate_partial",
    "Verif.Unknowns.C33_status_fails",
    "Verif.Unknowns.C33_block_fails",
    "Verif.Unknowns.C33_multi_fails"
   ],
   "note": "any registration histories, meshes, number of processes; the entries must be Single/Block/Vector/StatusBlock entries whose existing unknowns come first on each element; otherwise false of the code (C33_status_fails, C33_block_fails, C33_multi_fails). Indices of ghost elements (ExchangeData) not modelled."
  },
  {
   "property": "C34",
   "status": "proved",
   "theorems": [
    "Verif.Unknowns.C34_register",
    "Verif.Unknowns.C34_unregister",
    "Verif.Unknowns.C34_unregister_absent",
    "Verif.Unknowns.C34_activity"
   ],
   "note": ""
  },
  {
   "property": "C35",
   "status": "proved",
   "theorems": [
    "Verif.Record.C35_record_retrieve",
    "Verif.Record.C35_getData_setData"
   ],
   "note": ""
  },
  {
   "property": "C36",
   "status": "proved",
   "theorems": [
    "Verif.Dense.C36_normal_equations",
    "Verif.Dense.C36_square",
    "Verif.Dense.C36_tiny_fails",
    "Verif.Dense.C36_empty_fails"
   ],
   "note": "all sizes and right-hand sides over any linearly ordered field; zero pivots are covered, only pivots strictly between 0 and 1e-54 in absolute value are excluded (the code then returns a wrong answer, C36_tiny_fails), and matrices without rows (C36_empty_fails)"
  },
  {
   "property": "C37",
   "status": "proved",
   "theorems": [
    "Verif.Dense.C37_cholesky",
    "Verif.Dense.C37_succeeds"
   ],
   "note": "over the reals; also success for every matrix with a Cholesky factor with diagonal at least 1e-24"
  },
  {
   "property": "C38",
   "status": "proved",
   "theorems": [
    "Verif.Dense.C38_transform"
   ],
   "note": ""
  },
  {
   "property": "C39",
   "status": "proved",
   "theorems": [
    "Verif.Text.C39_encode",
    "Verif.Text.C39_roundtrip",
    "Verif.Text.C39_alphabet"
   ],
   "note": "encodings shorter than 2^31 characters (the decoder keeps the length in an int)"
  },
  {
   "property": "C40",
   "status": "proved",
   "theorems": [
    "Verif.Text.C40_split"
   ],
   "note": ""
  },
  {
   "property": "C41",
   "status": "partial",
   "theorems": [
    "Verif.Binary.C41_integers_partial",
    "Verif.Binary.C41_high_fails",
    "Verif.Binary.C41_order"
   ],
   "note": "little-endian readers: all writers, orders and widths; other readers: only integers wider than their own. Otherwise the code accesses memory out of range (C41_high_fails)"
  },
  {
   "property": "C42",
   "status": "partial",
   "theorems": [
    "Verif.OrderInfo.C42_partial",
    "Verif.OrderInfo.C42_fails"
   ],
   "note": "exact condition: correct if and only if no empty interval begins at the row; otherwise false (C42_fails)"
  },
  {
   "property": "C43",
   "status": "partial",
   "theorems": [
    "Verif.OrderInfo.C43_update_partial",
    "Verif.OrderInfo.C43_rows_partial",
    "Verif.OrderInfo.C43_product_partial",
    "Verif.OrderInfo.C43_no_deadlock_partial",
    "Verif.OrderInfo.C43_terminates_partial",
    "Verif.OrderInfo.C43_prepare_partial",
    "Verif.OrderInfo.C43_empty_fails"
   ],
   "note": "any number of processes, matrix, overlap, order of requests and of messages; the message passing of Update is modelled step by step (result, no deadlock, termination, for any tags). Missing: empty intervals followed by rows, for which the code loses values (C43_empty_fails); overlapping initial intervals, see C53"
  },
  {
   "property": "C44",
   "status": "partial",
   "theorems": [
    "Verif.OrderInfo.C44_accumulate_partial",
    "Verif.OrderInfo.C44_terminates_partial"
   ],
   "note": "as C43, with the exact sum over all copies; same restriction on empty intervals"
  },
  {
   "property": "C45",
   "status": "partial",
   "theorems": [
    "Verif.OrderInfo.C45_overlapping_fails",
    "Verif.OrderInfo.C45_restore_partial"
   ],
   "note": "all matrices and overlap depths when the row intervals are disjoint and no empty interval is followed by rows; false when the intervals given by the user overlap (C45_overlapping_fails)"
  },
  {
   "property": "C46",
   "status": "partial",
   "theorems": [
    "Verif.ILU2.C46_ilu2_success",
    "Verif.Krylov.C46_bcgs_partial",
    "Verif.Krylov.C46_bcgs_success_partial",
    "Verif.Krylov.C46_bcgs_stop_partial",
    "Verif.Krylov.C46_bcgs_iterations_partial",
    "Verif.Krylov.C46_bcgs_noprec_fails",
    "Verif.Krylov.C46_bcgsl_residual",
    "Verif.Krylov.C46_bcgsl_success",
    "Verif.Krylov.C46_bcgsl_stale_fails"
   ],
   "note": "exact arithmetic, one process, perturbations and coefficients of the polynomial step arbitrary. BCGS: any preconditioner; without a preconditioner false (C46_bcgs_noprec_fails). BiCGStab(l): linear preconditioner or none; after a breakdown the reported residual is stale (C46_bcgsl_stale_fails)"
  },
  {
   "property": "C47",
   "status": "proved",
   "theorems": [
    "Verif.Topology.C47_delete",
    "Verif.Topology.C47_delete_hides",
    "Verif.Topology.C47_delete_hides_all",
    "Verif.Topology.C47_end"
   ],
   "note": ""
  },
  {
   "property": "C48",
   "status": "partial",
   "theorems": [
    "Verif.Sets.C48_handle_partial",
    "Verif.Sets.C48_global_id_partial",
    "Verif.Sets.C48_holes_long_partial",
    "Verif.Sets.C48_holes_fails",
    "Verif.Sets.C48_other_comparator_fails",
    "Verif.Sets.C48_after_clear_fails",
    "Verif.Sets.C48_unsorted"
   ],
   "note": "no holes, or holes in a long not yet sorted set; otherwise the code loses elements (C48_holes_fails), does not re-sort (C48_other_comparator_fails) or is undefined (C48_after_clear_fails). CENTROID and HIERARCHY comparators not modelled"
  },
  {
   "property": "C49",
   "status": "partial",
   "theorems": [
    "Verif.Sets.C49_partial",
    "Verif.Sets.C49_holes_fails",
    "Verif.Sets.C49_put_fails"
   ],
   "note": "sets without holes and without elements added by PutElement; the property is false otherwise (C49_holes_fails, C49_put_fails)"
  },
  {
   "property": "C50",
   "status": "proved",
   "theorems": [
    "Verif.Dense.C50_symmetric_storage"
   ],
   "note": ""
  },
  {
   "property": "C51",
   "status": "proved",
   "theorems": [
    "Verif.Dense.C51_cross",
    "Verif.Dense.C51_dot"
   ],
   "note": ""
  },
  {
   "property": "C52",
   "status": "partial",
   "theorems": [
    "Verif.OrderInfo.C52_overlap_partial"
   ],
   "note": "exact set of rows and positions; no empty interval followed by rows"
  },
  {
   "property": "C53",
   "status": "partial",
   "theorems": [
    "Verif.OrderInfo.C53_bounds_partial",
    "Verif.OrderInfo.C53_three_fails",
    "Verif.OrderInfo.C53_nested_fails"
   ],
   "note": "intervals of which only neighbours overlap; otherwise false (C53_three_fails, C53_nested_fails). Renumbering of processes not modelled"
  },
  {
   "property": "C54",
   "status": "proved",
   "theorems": [
    "Verif.ILU2.C54_triangular",
    "Verif.ILU2.C54_exact",
    "Verif.ILU2.C54_linear"
   ],
   "note": "exact arithmetic, one process; the row under construction is a list instead of linked arrays"
  },
  {
   "property": "C55",
   "status": "partial",
   "theorems": [
    "Verif.ILU2.C55_unchanged",
    "Verif.ILU2.C55_defined",
    "Verif.ILU2.C55_no_scaling_fails"
   ],
   "note": "holds with at least one scaling iteration and positive reuse tolerance; false with rescale_iterations = 0 (C55_no_scaling_fails)"
  },
  {
   "property": "C56",
   "status": "partial",
   "theorems": [
    "Verif.EdgeLoop.C56_fix_changes",
    "Verif.EdgeLoop.C56_fix_sound_partial",
    "Verif.EdgeLoop.C56_fix_complete_partial",
    "Verif.EdgeLoop.C56_false_fails",
    "Verif.EdgeLoop.C56_true_fails",
    "Verif.EdgeLoop.C56_check_complete_partial",
    "Verif.EdgeLoop.C56_check_sound_partial",
    "Verif.EdgeLoop.C56_check_open_fails",
    "Verif.EdgeLoop.C56_check_hidden_fails",
    "Verif.EdgeLoop.C56_cell_fails"
   ],
   "note": "holds when the last (FixEdgeOrder) or first (CheckEdgeOrder) stored edge is not hidden; CheckEdgeOrder ignores the last edge (C56_check_open_fails); Cell::FixEdgeOrder may not end (C56_cell_fails); faces of dimension two"
  },
  {
   "property": "C57",
   "status": "partial",
   "theorems": [
    "Verif.EdgeLoop.C57_nodes",
    "Verif.EdgeLoop.C57_mask_partial",
    "Verif.EdgeLoop.C57_mask_fails",
    "Verif.EdgeLoop.C57_after_fix_partial"
   ],
   "note": "getNodes() in general; getNodes(mask) fails with hidden edges at the ends of the array (C57_mask_fails)"
  },
  {
   "property": "C58",
   "status": "partial",
   "theorems": [
    "Verif.Split.C58_loop_partial",
    "Verif.Split.C58_loop_plain",
    "Verif.Split.C58_loop_guided",
    "Verif.Split.C58_elsewhere",
    "Verif.Split.C58_hidden_fails"
   ],
   "note": "holds outside modifications (C58_loop_plain) and, with hidden elements, when the edge stored before the split one shows the direction (C58_loop_guided); false otherwise (C58_hidden_fails); defined outcome not proved"
  },
  {
   "property": "C59",
   "status": "partial",
   "theorems": [
    "Verif.Split.C59_loop",
    "Verif.Split.C59_loop_wrap",
    "Verif.Split.C59_elsewhere",
    "Verif.Split.C59_test_partial",
    "Verif.Split.C59_test_disjoint_fails",
    "Verif.Split.C59_third_fails"
   ],
   "note": "loops in general for both positions of the piece; TestUniteEdges agrees with UniteEdges where that has a defined outcome, but returns true for edges that cannot be united (C59_test_disjoint_fails) and for edges with a third edge at an inner node, which is then deleted (C59_third_fails)"
  },
  {
   "property": "C60",
   "status": "partial",
   "theorems": [
    "Verif.Parallel.C60_terminates",
    "Verif.Parallel.C60_ghosts_equal_owner",
    "Verif.Parallel.C60_values_partial",
    "Verif.Parallel.C60_elsewhere",
    "Verif.Parallel.C60_absent_fails",
    "Verif.Parallel.C60_empty_fails"
   ],
   "note": "termination, no failure, no change elsewhere in general; equality for tags with a fixed positive size and values everywhere (C60_ghosts_equal_owner), and for all tags where the owner has a nonempty value; a ghost keeps old data if the owner has none or an empty array (C60_absent_fails, C60_empty_fails)"
  },
  {
   "property": "C61",
   "status": "proved",
   "theorems": [
    "Verif.Parallel.C61_terminates",
    "Verif.Parallel.C61_each_ghost_once",
    "Verif.Parallel.C61_order_irrelevant",
    "Verif.Parallel.C61_sum",
    "Verif.Parallel.C61_elsewhere"
   ],
   "note": "MPI packing is the identity on lists; tags of references and of variables left out"
  },
  {
   "property": "C62",
   "status": "partial",
   "theorems": [
    "Verif.Parallel.C62_terminates",
    "Verif.Parallel.C62_set",
    "Verif.Parallel.C62_elsewhere",
    "Verif.Parallel.C62_or",
    "Verif.Parallel.C62_xor",
    "Verif.Parallel.C62_and_partial",
    "Verif.Parallel.C62_and_fails"
   ],
   "note": "SET, OR, XOR in general; AND gives the marker of the owner (C62_and_partial), wrong if the owner is marked and a ghost is not (C62_and_fails)"
  },
  {
   "property": "C63",
   "status": "proved",
   "theorems": [
    "Verif.Parallel.C63_terminates",
    "Verif.Parallel.C63_exact",
    "Verif.Parallel.C63_total",
    "Verif.Parallel.C63_owned_first",
    "Verif.Parallel.C63_copies"
   ],
   "note": "integers unbounded; the tag has one integer; MPI collectives as specified by the standard"
  },
  {
   "property": "C64",
   "status": "proved",
   "theorems": [
    "Verif.Parallel.C64_terminates",
    "Verif.Parallel.C64_exact",
    "Verif.Parallel.C64_copies",
    "Verif.Parallel.C64_distributed"
   ],
   "note": "parallel state of the mesh; integers unbounded"
  },
  {
   "property": "C65",
   "status": "partial",
   "theorems": [
    "Verif.Parallel.C65_chunks",
    "Verif.Parallel.C65_reports_partial",
    "Verif.Parallel.C65_large_fails"
   ],
   "note": "chunks in general; reporting for buffers up to INT_MAX bytes; larger ones fail (C65_large_fails)"
  },
  {
   "property": "C66",
   "status": "partial",
   "theorems": [
    "Verif.Search.C66_answers",
    "Verif.Search.C66_sound",
    "Verif.Search.C66_found_partial",
    "Verif.Search.C66_empty_fails",
    "Verif.Search.C66_large_fails"
   ],
   "note": "soundness in general; completeness for coordinates up to 16384; larger ones fail because the boxes are kept in float (C66_large_fails); an empty set fails an assertion (C66_empty_fails)"
  },
  {
   "property": "C67",
   "status": "partial",
   "theorems": [
    "Verif.Search.C67_solid",
    "Verif.Search.C67_convex_inside",
    "Verif.Search.C67_outside_partial",
    "Verif.Search.C67_polygon_partial",
    "Verif.Search.C67_planar_fails",
    "Verif.Search.C67_small_fails"
   ],
   "note": "solid cells: exact meaning of the answer for closed surfaces, convex cells contain their points, and without tolerance no others; flat cells in space; in meshes of dimension 2 every point is found in every cell (C67_planar_fails); the tolerance is absolute (C67_small_fails)"
  },
  {
   "property": "C68",
   "status": "partial",
   "theorems": [
    "Verif.Search.C68_cells",
    "Verif.Search.C68_faces",
    "Verif.Search.C68_found_partial",
    "Verif.Search.C68_mixed_fails",
    "Verif.Search.C68_coplanar_fails"
   ],
   "note": "soundness and absence of repetitions in general, except repeated faces if the tree has a cell and its face (C68_mixed_fails); completeness for segments that cross the plane of the face and coordinates up to 16384; segments in the plane of a face are missed (C68_coplanar_fails)"
  },
  {
   "property": "C69",
   "status": "partial",
   "theorems": [
    "Verif.Search.C69_cells_partial",
    "Verif.Search.C69_faces_partial",
    "Verif.Search.C69_found_partial",
    "Verif.Search.C69_degenerate_fails",
    "Verif.Search.C69_float_fails"
   ],
   "note": "soundness for faces whose triangles at the centroid are not degenerate, else it fails (C69_degenerate_fails: an L-shaped face); completeness up to twice the error of conversion to float, exact for representable coordinates, else it fails (C69_float_fails)"
  },
  {
   "property": "C70",
   "status": "partial",
   "theorems": [
    "Verif.Geometry.C70_search_partial",
    "Verif.Geometry.C70_convex_partial",
    "Verif.Geometry.C70_tiny_fails"
   ],
   "note": "surfaces that do not pass CheckConvexity and convex cells; small cells that are not convex pass CheckConvexity and are marked wrongly (C70_tiny_fails); exact arithmetic"
  },
  {
   "property": "C71",
   "status": "partial",
   "theorems": [
    "Verif.Geometry.C71_convex_partial",
    "Verif.Geometry.C71_general_partial",
    "Verif.Geometry.C71_tiny_fails",
    "Verif.Geometry.C71_cavity_fails"
   ],
   "note": "flat faces, connected surfaces, exact arithmetic; small cells that are not convex and cells with cavities fail (C71_tiny_fails, C71_cavity_fails)"
  },
  {
   "property": "C72",
   "status": "partial",
   "theorems": [
    "Verif.Geometry.C72_convex_partial",
    "Verif.Geometry.C72_general_partial"
   ],
   "note": "flat faces, connected surfaces, exact arithmetic; cells as in C71"
  },
  {
   "property": "C73",
   "status": "proved",
   "theorems": [
    "Verif.Geometry.C73_normal",
    "Verif.Geometry.C73_flat",
    "Verif.Geometry.C73_barycenter",
    "Verif.Geometry.C73_closed"
   ],
   "note": "meshes of dimension 3, exact arithmetic"
  },
  {
   "property": "C74",
   "status": "partial",
   "theorems": [
    "Verif.Geometry.C74_check_partial",
    "Verif.Geometry.C74_free",
    "Verif.Geometry.C74_fix_partial",
    "Verif.Geometry.C74_tiny_fails"
   ],
   "note": "cells as in C71, faces with one or two visible cells; small cells that are not convex fail (C74_tiny_fails)"
  },
  {
   "property": "C75",
   "status": "partial",
   "theorems": [
    "Verif.Pmf.C75_save_load_partial",
    "Verif.Pmf.C75_file_determines_partial",
    "Verif.Pmf.C75_save_unchanged_partial",
    "Verif.Pmf.C75_skipped",
    "Verif.Pmf.C75_empty_bytes_fails",
    "Verif.Pmf.C75_cell_order_fails",
    "Verif.Pmf.C75_long_name_fails"
   ],
   "note": "one processor; the order of elements built on an element is not restored (C75_cell_order_fails), empty records of bytes become one zero byte (C75_empty_bytes_fails), names of 256 letters make a file that cannot be read (C75_long_name_fails); references to other meshes, negative integers between machines of different width and stored tables of geometric data are not modelled"
  },
  {
   "property": "C76",
   "status": "partial",
   "theorems": [
    "Verif.Pmf.C76_parts_read_once",
    "Verif.Pmf.C76_messages_partial",
    "Verif.Pmf.C76_first_twice_fails"
   ],
   "note": "proved with MPI file routines (C76_parts_read_once); with messages the first processor gets its own bytes twice (C76_first_twice_fails), all others are right (C76_messages_partial)"
  },
  {
   "property": "C77",
   "status": "proved",
   "theorems": [
    "Verif.Pmf.C77_one_reader",
    "Verif.Pmf.C77_owner_of_reader",
    "Verif.Pmf.C77_agreement",
    "Verif.Pmf.C77_enough_processors"
   ],
   "note": "parts list the ranks of their writers in the order of the file, as C76 gives; merging of copies of one element from several parts is not modelled"
  },
  {
   "property": "C78",
   "status": "partial",
   "theorems": [
    "Verif.Xml.C78_write_read_partial",
    "Verif.Xml.C78_injective_partial",
    "Verif.Xml.C78_root_stub_fails",
    "Verif.Xml.C78_underscore_fails",
    "Verif.Xml.C78_quote_fails",
    "Verif.Xml.C78_contents_fails"
   ],
   "note": "trees of Writable: names begin with a letter, values without quotes, contents without the end of a data block; the root may not be closed at once (C78_root_stub_fails); what cannot be written is shown by C78_underscore_fails, C78_quote_fails, C78_contents_fails"
  },
  {
   "property": "C79",
   "status": "partial",
   "theorems": [
    "Verif.Xml.C79_document_partial",
    "Verif.Xml.C79_unambiguous",
    "Verif.Xml.C79_mismatch",
    "Verif.Xml.C79_classes",
    "Verif.Xml.C79_text_after_comment_fails",
    "Verif.Xml.C79_bare_value_fails",
    "Verif.Xml.C79_space_in_close_fails",
    "Verif.Xml.C79_truncated_fails"
   ],
   "note": "grammar without raw text after a comment, values without quotes at the end of a tag and white space in closing tags, for which reading fails (C79_text_after_comment_fails, C79_bare_value_fails, C79_space_in_close_fails); truncated files may raise an exception (C79_truncated_fails)"
  },
  {
   "property": "C80",
   "status": "partial",
   "theorems": [
    "Verif.Xml.C80_evaluate_partial",
    "Verif.Xml.C80_multiplier_partial",
    "Verif.Xml.C80_cut",
    "Verif.Xml.C80_no_multiplier",
    "Verif.Xml.C80_minus_after_bracket_fails",
    "Verif.Xml.C80_minus_after_operation_fails",
    "Verif.Xml.C80_exponent_fails",
    "Verif.Xml.C80_unbalanced_fails",
    "Verif.Xml.C80_error_ignored_fails"
   ],
   "note": "expressions without a minus directly after a right bracket, which is an error in the code (C80_minus_after_bracket_fails); exact arithmetic; missing brackets and errors are not reported (C80_unbalanced_fails, C80_error_ignored_fails)"
  },
  {
   "property": "C81",
   "status": "partial",
   "theorems": [
    "Verif.Xml.C81_words",
    "Verif.Xml.C81_dense",
    "Verif.Xml.C81_sparse_partial",
    "Verif.Xml.C81_runs",
    "Verif.Xml.C81_set_size",
    "Verif.Xml.C81_integer",
    "Verif.Xml.C81_bulk",
    "Verif.Xml.C81_reference",
    "Verif.Xml.C81_real",
    "Verif.Xml.C81_variable_partial",
    "Verif.Xml.C81_none_fails",
    "Verif.Xml.C81_derivatives_fails",
    "Verif.Xml.C81_empty_record_fails",
    "Verif.Xml.C81_last_word_fails",
    "Verif.Xml.C81_one_by_one_fails",
    "Verif.Xml.C81_nested_brackets_fails",
    "Verif.Xml.C81_declaration_partial",
    "Verif.Xml.C81_remote_fails"
   ],
   "note": "derivatives of values are lost (C81_derivatives_fails), a reference to no element becomes one to the first node (C81_none_fails), tags of remote references become tags of reals (C81_remote_fails), empty records of sparse tags are lost (C81_empty_record_fails); reals under the hypothesis that output and atof are inverse; records of sets by name and the attribute Offset are not modelled"
  },
  {
   "property": "C82",
   "status": "partial",
   "theorems": [
    "Verif.Topology.C82_bridge",
    "Verif.Topology.C82_other",
    "Verif.Topology.C82_back_front",
    "Verif.Topology.C82_neighbour",
    "Verif.Topology.C82_neighbouring_cells",
    "Verif.Topology.C82_repeated_fails",
    "Verif.Topology.C82_three_cells_fails"
   ],
   "note": "BridgeAdjacencies for all types and masks, BackCell, FrontCell, Neighbour, NeighbouringCells proved. The neighbours of a cell at a face with three cells are incomplete and the list of neighbouring cells can have repetitions (counterexamples). The typed variants BridgeAdjacencies2Node.. are not modelled."
  },
  {
   "property": "C83",
   "status": "partial",
   "theorems": [
    "Verif.Parallel.C83_distributed",
    "Verif.Parallel.C83_assert",
    "Verif.Parallel.C83_terminates",
    "Verif.Parallel.C83_no_cells_fails",
    "Verif.Topology.C83_boundary",
    "Verif.Topology.C83_lists_partial",
    "Verif.Topology.C83_hidden_fails",
    "Verif.Topology.C83_three_cells_fails"
   ],
   "note": "Boundary of all elements, lists, counts and marks on one processor outside of modifications, marks on several processors for all schedules proved. During a modification hidden faces are listed, a face with three cells is in neither list, a face without cells is marked on one processor but not on several (counterexamples)."
  },
  {
   "property": "C84",
   "status": "partial",
   "theorems": [
    "Verif.Resolve.C84_processors",
    "Verif.Resolve.C84_owner",
    "Verif.Resolve.C84_numbers",
    "Verif.Resolve.C84_distributed",
    "Verif.Resolve.C84_schedule",
    "Verif.Resolve.C84_terminates",
    "Verif.Resolve.C84_boundary_fails",
    "Verif.Resolve.C84_chain_fails",
    "Verif.Resolve.C84_part_fails"
   ],
   "note": "the parts of a mesh without hidden elements, in exact arithmetic; the condition that being close within the tolerance is transitive, that no distance is exactly the tolerance and that no element is a part of another are necessary (C84_chain_fails, C84_boundary_fails, C84_part_fails). The call of EquilibrateGhost at the end is C85; the exchange of new elements only is not part of this model."
  },
  {
   "property": "C85",
   "status": "partial",
   "theorems": [
    "Verif.Parallel.C85_agreed",
    "Verif.Parallel.C85_cells",
    "Verif.Parallel.C85_owned",
    "Verif.Parallel.C85_lower",
    "Verif.Parallel.C85_terminates",
    "Verif.Parallel.C85_schedule",
    "Verif.Resolve.C85_resolve"
   ],
   "note": "meshes without hidden elements whose copies agree (C85_resolve: those made by ResolveShared); neighbours of cells are a parameter (C82 describes them); numbers of steps below INT_MAX, unbounded integers otherwise; the bookkeeping of lists of shared and ghost elements is recomputed in every call."
  },
  {
   "property": "C86",
   "status": "partial",
   "theorems": [
    "Verif.Incident.C86_outer",
    "Verif.Incident.C86_order",
    "Verif.Incident.C86_terminates",
    "Verif.Incident.C86_closed",
    "Verif.Incident.C86_uses",
    "Verif.Incident.C86_polygon",
    "Verif.Incident.C86_complete",
    "Verif.Incident.C86_best",
    "Verif.Incident.C86_shortest_fails",
    "Verif.Incident.C86_faces_fails"
   ],
   "note": "C86_shortest_fails: the number of edges of the first loop found limits the others, so the loop returned is the shortest only among those with no more edges; C86_faces_fails: completeness holds for edges only. Floating point comparisons are parameters; C86_best assumes exact sums that differ by more than MEASURE_EPS or are equal."
  },
  {
   "property": "C87",
   "status": "partial",
   "theorems": [
    "Verif.Split.C87_area_fails",
    "Verif.Split.C87_hole_fails",
    "Verif.Split.C87_nodes_fails",
    "Verif.Split.C87_noop",
    "Verif.Split.C87_reach",
    "Verif.Split.C87_faces",
    "Verif.Split.C87_cover",
    "Verif.Split.C87_cells",
    "Verif.Split.C87_closed",
    "Verif.Split.C87_elsewhere",
    "Verif.Split.C87_nodes",
    "Verif.Split.C87_defined"
   ],
   "note": "The parts are polygons with the right use of every edge, but need not be a geometric subdivision (C87_area_fails: loops are chosen by length), closed polygons inside are not cut out (C87_hole_fails), and nodes that the cell has already are attached twice (C87_nodes_fails)."
  },
  {
   "property": "C88",
   "status": "partial",
   "theorems": [
    "Verif.Split.C88_unused_fails",
    "Verif.Split.C88_cavity_fails",
    "Verif.Split.C88_noop",
    "Verif.Split.C88_reach",
    "Verif.Split.C88_cells",
    "Verif.Split.C88_uses",
    "Verif.Split.C88_elsewhere",
    "Verif.Split.C88_nodes",
    "Verif.Split.C88_defined"
   ],
   "note": "Given faces need not be used although they cut the cell into parts (C88_unused_fails), a cavity is filled with a cell (C88_cavity_fails). The topology check DUPLICATE_CELL is off (the default) except in C88_reach; the nodes of the new cells (RestoreCellNodes) are a parameter."
  },
  {
   "property": "C89",
   "status": "partial",
   "theorems": [
    "Verif.Split.C89_test_fails",
    "Verif.Split.C89_touch_fails",
    "Verif.Split.C89_repeat_fails",
    "Verif.Split.C89_third_fails",
    "Verif.Split.C89_refuse",
    "Verif.Split.C89_reach",
    "Verif.Split.C89_elements",
    "Verif.Split.C89_cell",
    "Verif.Split.C89_even",
    "Verif.Split.C89_rest",
    "Verif.Split.C89_nodes",
    "Verif.Split.C89_protect",
    "Verif.Split.C89_defined",
    "Verif.Split.C89_test"
   ],
   "note": "TestUniteCells ignores protected nodes (C89_test_fails); cells that only touch along an edge give a cell with four faces at the edge (C89_touch_fails); a repeated cell (C89_repeat_fails) and a face with a third cell (C89_third_fails) are outside the hypotheses. DUPLICATE_CELL is off (the default) except in C89_refuse and C89_reach; the nodes of the new cell (RestoreCellNodes) are a parameter."
  },
  {
   "property": "C90",
   "status": "partial",
   "theorems": [
    "Verif.Split.C90_test_partial",
    "Verif.Split.C90_test_fails",
    "Verif.Split.C90_closed_fails",
    "Verif.Split.C90_refuse",
    "Verif.Split.C90_new",
    "Verif.Split.C90_reach",
    "Verif.Split.C90_elements",
    "Verif.Split.C90_rest",
    "Verif.Split.C90_face",
    "Verif.Split.C90_cells",
    "Verif.Split.C90_nodes",
    "Verif.Split.C90_closed",
    "Verif.Split.C90_together",
    "Verif.Split.C90_defined"
   ],
   "note": "TestUniteFaces fails an assertion whenever two of the faces share an edge (C90_test_fails; C90_test_partial is the rest); faces of different cells that have only a node in common are united and leave open cells (C90_closed_fails; C90_closed and C90_together give the conditions). DUPLICATE_FACE is off (the default) except in C90_refuse, C90_new and C90_reach; the assertions on geometric types and the geometric data are left out."
  },
  {
   "property": "C91",
   "status": "partial",
   "theorems": [
    "Verif.Refs.C91_remote_fails",
    "Verif.Refs.C91_links_fails",
    "Verif.Refs.C91_histories_partial",
    "Verif.Refs.C91_apply_partial",
    "Verif.Refs.C91_end_partial",
    "Verif.Refs.C91_deleteSet"
   ],
   "note": "Remote references are not reset although documented (C91_remote_fails); if a set is deleted together with one of its children but not with the child before it, ApplyModification fails an assertion (C91_links_fails). The theorems assume that no deleted set has a deleted parent and that a root set with a remaining sibling link to a deleted set finds it without parent; both hold if each set was taken away from its parent first (C91_deleteSet), as DeleteSet does. Names of sets, AssignGlobalID and the geometric data are left out."
  },
  {
   "property": "C92",
   "status": "partial",
   "theorems": [
    "Verif.Names.C92_getSet_partial",
    "Verif.Names.C92_create_partial",
    "Verif.Names.C92_destroy_partial",
    "Verif.Names.C92_endMod_partial",
    "Verif.Names.C92_prefix_partial",
    "Verif.Names.C92_hidden_fails",
    "Verif.Names.C92_unique_fails",
    "Verif.Names.C92_clear_fails",
    "Verif.Names.C92_copy_fails"
   ],
   "note": "In a modification GetSet and CreateSet return sets that were deleted, which EndModification then destroys (C92_hidden_fails); CreateSetUnique with a name in use makes two sets of one name and a later deletion loses both (C92_unique_fails); Clear keeps the names of sets that no longer exist (C92_clear_fails); a copy of a mesh finds none of its sets (C92_copy_fails). The theorems range over histories without these four: CreateSetUnique only with new names, no Clear, no copy; deleted sets count until EndModification."
  },
  {
   "property": "C93",
   "status": "partial",
   "theorems": [
    "Verif.Names.C93_resolve_partial",
    "Verif.Names.C93_agree_partial",
    "Verif.Names.C93_zero_fails"
   ],
   "note": "A name with a zero byte makes the call fail an assertion (C93_zero_fails). RecomputeParallelStorage and AssignGlobalID at the end of the call are left out, as are histories that C92 refutes (Clear, copies, CreateSetUnique with a name in use)."
  },
  {
   "property": "C94",
   "status": "partial",
   "theorems": [
    "Verif.Adjacency.C94_history_partial",
    "Verif.Adjacency.C94_removeUpper",
    "Verif.Adjacency.C94_removeLower",
    "Verif.Adjacency.C94_restoreUpper_partial",
    "Verif.Adjacency.C94_restoreLower_partial",
    "Verif.Adjacency.C94_back_fails",
    "Verif.Adjacency.C94_direction_fails",
    "Verif.Adjacency.C94_face_fails"
   ],
   "note": "The order is not restored: back and front cell of a face may be exchanged if the orientation is not maintained (C94_back_fails), the ends of an edge and the direction of the nodes of a face may be reversed (C94_direction_fails); RestoreLowerAdjacencies(FACE) without nodes of edges has no defined outcome (C94_face_fails). The polygon statement is for restorations outside modifications; cells have dimension three (Cell::FixEdgeOrder of dimension two is in C56)."
  },
  {
   "property": "C95",
   "status": "partial",
   "theorems": [
    "Verif.Parallel.C95_elements_partial",
    "Verif.Parallel.C95_partition_partial",
    "Verif.Parallel.C95_cells",
    "Verif.Parallel.C95_terminates_partial",
    "Verif.Parallel.C95_marker_fails"
   ],
   "note": "Full for the call without marker (C95_cells; the other theorems with mk constantly true). With a marker the theorems need the marker to be the same on all copies of a cell; otherwise the owner keeps listing a processor that has no copy (C95_marker_fails). Proved for the build with USE_PARALLEL_STORAGE; the flags layers and bridge set at the end and links of other tags to deleted elements (C91) are not in the model; sets are not touched by this call."
  },
  {
   "property": "C96",
   "status": "partial",
   "theorems": [
    "Verif.Parallel.C96_elements_partial",
    "Verif.Parallel.C96_partition_partial",
    "Verif.Parallel.C96_terminates_partial",
    "Verif.Parallel.C96_nonghost_fails",
    "Verif.Parallel.C96_lower_fails"
   ],
   "note": "For arrays of cells and sets. A ghost face, edge or node that is passed is deleted with everything above, also owned cells, although the documentation says it is ignored (C96_lower_fails); elements that are not ghosts stay although the documentation says they are deleted (C96_nonghost_fails). Links of other tags to deleted elements are C91."
  },
  {
   "property": "C97",
   "status": "partial",
   "theorems": [
    "Verif.Transfer.C97_gather",
    "Verif.Transfer.C97_message",
    "Verif.Transfer.C97_twice_fails"
   ],
   "note": "Proved for selections without repetition; a node named twice is created twice (C97_twice_fails). Elements are recognised by number (nodes) and connectivity; the mesh has no two elements of which one has its boundary inside the boundary of the other. Sets, and tags whose values are references, are not in the model."
  },
  {
   "property": "C98",
   "status": "partial",
   "theorems": [
    "Verif.Transfer.C98_completes",
    "Verif.Transfer.C98_elements",
    "Verif.Transfer.C98_partition",
    "Verif.Transfer.C98_values",
    "Verif.Transfer.C98_listed"
   ],
   "note": "For action AGhost (not AMigrate) and marks without repetition (see C97). Elements only: sets and tags whose values are references are not in the model; checks that only print are left out."
  },
  {
   "property": "C99",
   "status": "partial",
   "theorems": [
    "Verif.Layers.C99_skin",
    "Verif.Layers.C99_completes",
    "Verif.Layers.C99_only",
    "Verif.Layers.C99_layers_partial",
    "Verif.Layers.C99_faces",
    "Verif.Layers.C99_partition",
    "Verif.Layers.C99_values",
    "Verif.Layers.C99_node_fails"
   ],
   "note": "The code violates the full property for bridges NODE and EDGE: cells of different processors that meet in a node or an edge without a face of the skin of both there are not found (C99_node_fails); otherwise, and always for FACE, exactly the layers are built (C99_layers_partial, C99_faces), provided the owner of an element of the bridge type has a cell there. For marker = 0 and delete_ghost = false."
  },
  {
   "property": "C100",
   "status": "partial",
   "theorems": [
    "Verif.Migrate.C100_isolated_fails",
    "Verif.Migrate.C100_completes_partial",
    "Verif.Migrate.C100_partition_partial",
    "Verif.Migrate.C100_own_partial",
    "Verif.Migrate.C100_cells_partial",
    "Verif.Migrate.C100_values_partial"
   ],
   "note": "The code violates the full property for elements that belong to no cell: determine_my_procs_high returns without clearing its result, and such a face is deleted on the processor that stays its owner (C100_isolated_fails); proved when every element of a processor is a cell or on the boundary of one of its cells. Sets and references in tags are left out."
  },
  {
   "property": "C101",
   "status": "partial",
   "theorems": [
    "Verif.Migrate.C101_only",
    "Verif.Migrate.C101_faces",
    "Verif.Migrate.C101_layers_partial",
    "Verif.Migrate.C101_layers_fails"
   ],
   "note": "The code violates the full property: the layers are chosen by what each processor sees before the redistribution (C101_layers_fails); nothing outside the layers is sent (C101_only), one layer through faces is exact (C101_faces), and all layers are exact if one processor has the whole mesh before (C101_layers_partial)."
  },
  {
   "property": "C102",
   "status": "partial",
   "theorems": [
    "Verif.Copy.C102_partial",
    "Verif.Copy.C102_assign_partial",
    "Verif.Copy.C102_sparse_fails",
    "Verif.Copy.C102_fails"
   ],
   "note": "The code violates the full property: sparse data is searched by the address of the new tag and never copied (C102_sparse_fails, C102_fails); all the rest is proved for copy constructor and assignment. Set search tables and hidden counters are left out."
  },
  {
   "property": "C103",
   "status": "partial",
   "theorems": [
    "Verif.Copy.C103_partial",
    "Verif.Copy.C103_original",
    "Verif.Copy.C103_reorder_fails",
    "Verif.Copy.C103_assign_fails"
   ],
   "note": "The code violates the full property: back_links are not copied, so that ReorderEmpty on a copy and the next creation make two elements share data (C103_reorder_fails), and assignment keeps the list of released columns (C103_assign_fails); proved for all histories on a copy without ReorderEmpty."
  },
  {
   "property": "C104",
   "status": "partial",
   "theorems": [
    "Verif.Copy.C104_partial",
    "Verif.Copy.C104_duplicate_partial",
    "Verif.Copy.C104_self_fails",
    "Verif.Copy.C104_mesh_fails"
   ],
   "note": "The code violates the full property: a tag of variable size copied to itself loses its data (C104_self_fails), and a sparse input without data on the mesh gets data there (C104_mesh_fails); proved in all other cases."
  },
  {
   "property": "C105",
   "status": "partial",
   "theorems": [
    "Verif.CellNodes.C105_hex",
    "Verif.CellNodes.C105_prism",
    "Verif.CellNodes.C105_pyramid_partial",
    "Verif.CellNodes.C105_tet_partial",
    "Verif.CellNodes.C105_hidden_fails",
    "Verif.CellNodes.C105_polygon_partial",
    "Verif.CellNodes.C105_any",
    "Verif.CellNodes.C105_polygon_type",
    "Verif.CellNodes.C105_type_partial",
    "Verif.CellNodes.C105_type_fails",
    "Verif.CellNodes.C105_created_fails"
   ],
   "note": "The code violates the full property: CreateCell restores the nodes before the type is known, so a new hexahedron does not have the order of VTK (C105_created_fails); hidden edges make types wrong (C105_type_fails) and nodes missing (C105_hidden_fails); proved in all other cases."
  },
  {
   "property": "C106",
   "status": "partial",
   "theorems": [
    "Verif.Views.C106_value",
    "Verif.Views.C106_copy",
    "Verif.Views.C106_mul_partial",
    "Verif.Views.C106_mul_empty_fails",
    "Verif.Views.C106_trace",
    "Verif.Views.C106_dot",
    "Verif.Views.C106_mul_variable_partial",
    "Verif.Views.C106_mul_variable_fails",
    "Verif.Views.C106_mul_variable_outside_fails"
   ],
   "note": "The code violates the full property: a product over an empty inner dimension reads outside of the arrays (C106_mul_empty_fails); products of matrices of variables sum over the columns of the result (C106_mul_variable_fails, C106_mul_variable_outside_fails); proved in all other cases."
  },
  {
   "property": "C107",
   "status": "partial",
   "theorems": [
    "Verif.Views.C107_matrix_partial",
    "Verif.Views.C107_window_partial",
    "Verif.Views.C107_compound_partial",
    "Verif.Views.C107_coefficient",
    "Verif.Views.C107_mul_matrix",
    "Verif.Views.C107_mul_window",
    "Verif.Views.C107_transpose_fails",
    "Verif.Views.C107_symmetrize_fails",
    "Verif.Views.C107_overlap_fails",
    "Verif.Views.C107_zero_fails",
    "Verif.Views.C107_rebind_fails",
    "Verif.Views.C107_target_fails"
   ],
   "note": "The code violates the full property: A = A.Transpose(), A += A.Transpose(), overlapping submatrices, assignment to BlockOf, to named views and to A.Transpose() (C107_*_fails); proved when the right side uses the left side element by element, and for V *= e without condition."
  },
  {
   "property": "C108",
   "status": "partial",
   "theorems": [
    "Verif.Dense.Det.C108_det_partial",
    "Verif.Dense.Det.C108_integer",
    "Verif.Dense.Det.C108_small_tolerance",
    "Verif.Dense.Det.C108_pivot_fails",
    "Verif.Dense.Det.C108_coef_fails"
   ],
   "note": "The code violates the full property: pivots below 1e-13 count as zero (C108_pivot_fails) and multipliers below 1e-13 are skipped (C108_coef_fails); proved when no tested number is nonzero and that small, and without condition for integer matrices with n! B^n < 10^13; rounding is not modelled."
  },
  {
   "property": "C109",
   "status": "partial",
   "theorems": [
    "Verif.Residual.C109_rescale_partial",
    "Verif.Residual.C109_rescale_solutions",
    "Verif.Residual.C109_rescale_idempotent",
    "Verif.Residual.C109_rescale_zero_fails",
    "Verif.Residual.C109_norm",
    "Verif.Residual.C109_norm_zero",
    "Verif.Residual.C109_clear",
    "Verif.Residual.C109_hessian_fails",
    "Verif.Residual.C109_setInterval_partial",
    "Verif.Residual.C109_setInterval_fails",
    "Verif.Residual.C109_locks_partial",
    "Verif.Residual.C109_locks_copy_fails",
    "Verif.Residual.C109_locks_interval_fails",
    "Verif.Residual.C109_assemble_partial",
    "Verif.Residual.C109_assemble_order"
   ],
   "note": "The code violates parts of the property: Rescale(0) turns equations into 0 = 0 (C109_rescale_zero_fails), SetInterval with another beginning renumbers the equations (C109_setInterval_fails) and leaves the interval of a Hessian, so that Clear and Rescale access missing rows (C109_hessian_fails), copies have no locks and SetInterval leaves the old ones (C109_locks_copy_fails, C109_locks_interval_fails). Contributions are expressions covered by C29; exact arithmetic."
  },
  {
   "property": "C110",
   "status": "partial",
   "theorems": [
    "Verif.Residual.C110_row_partial",
    "Verif.Residual.C110_matVec_partial",
    "Verif.Residual.C110_mixed_fails",
    "Verif.Residual.C110_double_fails",
    "Verif.Residual.C110_count_fails",
    "Verif.Residual.C110_short_fails",
    "Verif.Residual.C110_empty_fails"
   ],
   "note": "The code violates the property: both loops run to the number of entries of the row of U (C110_count_fails, C110_short_fails, C110_empty_fails) and entries off the diagonal, which hold twice the mixed derivative, are counted twice (C110_mixed_fails, C110_double_fails). Proved for rows of equal numbers of entries with a diagonal Hessian."
  },
  {
   "property": "C111",
   "status": "partial",
   "theorems": [
    "Verif.Sets.C111_unite_partial",
    "Verif.Sets.C111_last_fails",
    "Verif.Sets.C111_holes_fails",
    "Verif.Sets.C111_tail_fails"
   ],
   "note": "The code violates the property: if the last element of the second set is in the first one, all elements behind it are lost (C111_last_fails); elements behind a hole are lost (C111_holes_fails), also those behind a common element in the unsorted parts (C111_tail_fails). Proved for any strict weak order in all other cases without holes."
  },
  {
   "property": "C112",
   "status": "partial",
   "theorems": [
    "Verif.Sets.C112_add_partial",
    "Verif.Sets.C112_last_fails",
    "Verif.Sets.C112_centroid_fails",
    "Verif.Sets.C112_centroid_partial"
   ],
   "note": "The code violates the property: for sets sorted by centroids a new element replaces the one it should be inserted before (C112_centroid_fails); if the last of the new elements is in the set, all behind it are lost (C112_last_fails). Proved in all other cases without holes; the comparisons are a parameter that is a strict weak order (comparisons of coordinates with a tolerance are not always)."
  },
  {
   "property": "C113",
   "status": "partial",
   "theorems": [
    "Verif.Sets.C113_put_partial",
    "Verif.Sets.C113_few_fails",
    "Verif.Sets.C113_put_sorted"
   ],
   "note": "The code violates the property: with fewer elements than holes the array given is read behind its end (C113_few_fails)."
  },
  {
   "property": "C114",
   "status": "partial",
   "theorems": [
    "Verif.Sets.C114_tree_partial",
    "Verif.Sets.C114_delete_partial",
    "Verif.Sets.C114_sibling_fails"
   ],
   "note": "The code violates the property: former children of a deleted set stay linked as siblings (C114_sibling_fails). Hierarchies are those of C19; deletion between BeginModification and EndModification is not modelled."
  },
  {
   "property": "C115",
   "status": "proved",
   "theorems": [
    "Verif.Heap.C115_heap"
   ],
   "note": ""
  },
  {
   "property": "C116",
   "status": "partial",
   "theorems": [
    "Verif.Heap.C116_custom_partial",
    "Verif.Heap.C116_change_fails",
    "Verif.Heap.C116_change_equal_fails",
    "Verif.Heap.C116_change_partial"
   ],
   "note": "The code violates the property: ChangeKey compares the new key with itself, so for a strict comparator the item is only moved towards the front (C116_change_fails), for a non-strict one only towards the back (C116_change_equal_fails). Proved for all other calls, and for ChangeKey with a smaller key and a strict comparator (C116_change_partial with C116_custom_partial)."
  },
  {
   "property": "C117",
   "status": "partial",
   "theorems": [
    "Verif.Matching.C117_permutation_partial",
    "Verif.Matching.C117_tie_fails"
   ],
   "note": "If a reduced cost equals 1e-30 exactly, the first pass (gap < 1e-30) does not match and the second pass (gap <= 1e-30) starts from a row without position, which fails the assert of L284 (C117_tie_fails). Proved for all matrices where no reduced cost of the start equals the threshold."
  },
  {
   "property": "C118",
   "status": "proved",
   "theorems": [
    "Verif.Matching.C118_dual",
    "Verif.Matching.C118_largest_sum",
    "Verif.Matching.C118_transversal",
    "Verif.Matching.C118_largest_product",
    "Verif.Matching.C118_real"
   ],
   "note": "Exact arithmetic; largest double larger than 2 n times the largest difference of logarithms in a column; reduced costs of the start below 1e-30 are zero. C118_largest_sum and C118_largest_product need no bound when every row is matched."
  },
  {
   "property": "C119",
   "status": "partial",
   "theorems": [
    "Verif.Models.C119_registry_partial",
    "Verif.Models.C119_entry_order",
    "Verif.Models.C119_scalar_names_fails",
    "Verif.Models.C119_coupling_fails",
    "Verif.Models.C119_coupling_partial"
   ],
   "note": "The code violates the property: GetScalarFunctionNames returns names of matrix functions (C119_scalar_names_fails); AddCouplingTerm cannot be used with asserts, since GetCouplingTerm dereferences end() (C119_coupling_fails). Proved for all other calls (C119_registry_partial, C119_entry_order) and for coupling terms without asserts (C119_coupling_partial)."
  },
  {
   "property": "C120",
   "status": "partial",
   "theorems": [
    "Verif.Models.C120_fill_partial",
    "Verif.Models.C120_steps",
    "Verif.Models.C120_coupling_inactive_fails"
   ],
   "note": "The code violates the property: coupling terms of a switched off submodel are evaluated (C120_coupling_inactive_fails). Everything else is proved (C120_fill_partial, C120_steps)."
  },
  {
   "property": "C121",
   "status": "proved",
   "theorems": [
    "Verif.Models.C121_least",
    "Verif.Models.C121_all"
   ],
   "note": ""
  },
  {
   "property": "C122",
   "status": "partial",
   "theorems": [
    "Verif.Models.C122_initialize_partial",
    "Verif.Models.C122_late_entry_fails"
   ],
   "note": "The code violates the property: an entry added while a coupling term or function is initialized is not registered (C122_late_entry_fails). Proved when entries and operators are added by submodels (entries also by operators), as the header asks."
  },
  {
   "property": "C123",
   "status": "partial",
   "theorems": [
    "Verif.Partition.C123_parts_partial",
    "Verif.Partition.C123_used_partial",
    "Verif.Partition.C123_idle_fails"
   ],
   "note": "The code violates the last part: four cells for four processors leave one without cells (C123_idle_fails). Everything else is proved (C123_parts_partial), with the exact condition for a processor to get cells (C123_used_partial)."
  },
  {
   "property": "C124",
   "status": "proved",
   "theorems": [
    "Verif.Partition.C124_parts",
    "Verif.Partition.C124_nearest",
    "Verif.Partition.C124_far_fails"
   ],
   "note": "In exact arithmetic. C124_far_fails shows that the condition on the coordinates is needed."
  },
  {
   "property": "C125",
   "status": "partial",
   "theorems": [
    "Verif.Partition.C125_parts_partial",
    "Verif.Partition.C125_idle_fails"
   ],
   "note": "The code violates the last part (C125_idle_fails). Termination and range are proved (C125_parts_partial), in exact arithmetic with NaN centres."
  },
  {
   "property": "C126",
   "status": "proved",
   "theorems": [
    "Verif.Locks.C126_refines",
    "Verif.Locks.C126_no_leak"
   ],
   "note": "Refinement over all histories; out-of-block pointers are formed as in the code, only dereferencing one is an error."
  },
  {
   "property": "C127",
   "status": "proved",
   "theorems": [
    "Verif.Locks.C127_sum",
    "Verif.Locks.C127_exclusive",
    "Verif.Locks.C127_progress",
    "Verif.Locks.C127_unlocked_fails"
   ],
   "note": "Sequentially consistent interleavings with split read and write. C127_unlocked_fails shows that the locks are needed."
  },
  {
   "property": "C128",
   "status": "partial",
   "theorems": [
    "Verif.Locks.C128_life_partial",
    "Verif.Locks.C128_empty_fails",
    "Verif.Locks.C128_test_fails"
   ],
   "note": "The code violates the claim for intervals without rows (C128_empty_fails) and for a Residual without locks (C128_test_fails); proved for all histories of intervals with rows (C128_life_partial)."
  },
  {
   "property": "C129",
   "status": "partial",
   "theorems": [
    "Verif.SolverFront.C129_listed",
    "Verif.SolverFront.C129_name_partial",
    "Verif.SolverFront.C129_name_fails",
    "Verif.SolverFront.C129_copy_partial",
    "Verif.SolverFront.C129_copy_fails"
   ],
   "note": "The code violates the name of inner_mlmptiluc (C129_name_fails) and copies (C129_copy_fails); everything else is proved (C129_listed, C129_name_partial, C129_copy_partial)."
  },
  {
   "property": "C130",
   "status": "partial",
   "theorems": [
    "Verif.SolverFront.C130_listed_partial",
    "Verif.SolverFront.C130_file",
    "Verif.SolverFront.C130_default",
    "Verif.SolverFront.C130_finalize",
    "Verif.SolverFront.C130_attribute_fails",
    "Verif.SolverFront.C130_get_partial",
    "Verif.SolverFront.C130_get_fails"
   ],
   "note": "The code ignores parameters with a second attribute (C130_attribute_fails) and GetParameter knows only four parameters (C130_get_fails); the rest is proved for inner_ilu2."
  },
  {
   "property": "C131",
   "status": "partial",
   "theorems": [
    "Verif.SolverFront.C131_history_partial",
    "Verif.SolverFront.C131_clear_fails",
    "Verif.SolverFront.C131_old_fails"
   ],
   "note": "The code violates the claim after Clear (C131_clear_fails) and for OldPreconditioner (C131_old_fails); proved for all other histories (C131_history_partial)."
  },
  {
   "property": "C132",
   "status": "partial",
   "theorems": [
    "Verif.Optim.C132_last",
    "Verif.Optim.C132_empty_fails",
    "Verif.Optim.C132_successful",
    "Verif.Optim.C132_unique_partial",
    "Verif.Optim.C132_unique_fails"
   ],
   "note": "The code fails for capacity 0 (C132_empty_fails) and returns one unique entry too many (C132_unique_fails); the rest is proved."
  },
  {
   "property": "C133",
   "status": "partial",
   "theorems": [
    "Verif.Optim.C133_announced_partial",
    "Verif.Optim.C133_announced_fails",
    "Verif.Optim.C133_range_partial",
    "Verif.Optim.C133_range_fails",
    "Verif.Optim.C133_closest"
   ],
   "note": "The code announces the first and uses the last of two changes of one parameter (C133_announced_fails), and writes past its vector for ranges that are not a whole number of steps (C133_range_fails); the rest is proved."
  },
  {
   "property": "C134",
   "status": "partial",
   "theorems": [
    "Verif.Optim.C134_use",
    "Verif.Optim.C134_current",
    "Verif.Optim.C134_restart_partial",
    "Verif.Optim.C134_restart_small_fails",
    "Verif.Optim.C134_restart_good_fails",
    "Verif.Optim.C134_restart_one_fails"
   ],
   "note": "Without restarts proved (C134_use, C134_current). Restarts fail for small buffers (C134_restart_small_fails, C134_restart_one_fails) and can adopt bad results (C134_restart_good_fails); otherwise C134_restart_partial."
  },
  {
   "property": "C135",
   "status": "partial",
   "theorems": [
    "Verif.Optim.Alternating.C135_listed",
    "Verif.Optim.Alternating.C135_total",
    "Verif.Optim.Alternating.C135_two_fails",
    "Verif.Optim.Alternating.C135_better_partial",
    "Verif.Optim.Alternating.C135_repeat_fails",
    "Verif.Optim.Alternating.C135_better_fails",
    "Verif.Optim.Alternating.C135_restart_fails"
   ],
   "note": "Listed values and absence of errors are proved (C135_listed, C135_total). The code repeats bad suggestions (C135_repeat_fails), never tries the second of two values (C135_two_fails) and can take worse values (C135_better_fails, C135_restart_fails)."
  },
  {
   "property": "C136",
   "status": "partial",
   "theorems": [
    "Verif.Optim.Annealing.C136_jump",
    "Verif.Optim.Annealing.C136_within",
    "Verif.Optim.Annealing.C136_single_fails",
    "Verif.Optim.Annealing.C136_strict_fails"
   ],
   "note": "Range and jump are proved (C136_jump, C136_within); the code gives no number for a parameter with one value (C136_single_fails) and is stuck at the ends with the strict bound (C136_strict_fails)."
  },
  {
   "property": "C137",
   "status": "partial",
   "theorems": [
    "Verif.Optim.Ttsp.C137_enabled_partial",
    "Verif.Optim.Ttsp.C137_enabled_fails",
    "Verif.Optim.Ttsp.C137_own",
    "Verif.Optim.Ttsp.C137_total_partial",
    "Verif.Optim.Ttsp.C137_null_fails",
    "Verif.Optim.Ttsp.C137_second_fails",
    "Verif.Optim.Ttsp.C137_type_fails",
    "Verif.Optim.Ttsp.C137_leak_fails"
   ],
   "note": "Proved for solver names without a colon (C137_enabled_partial, C137_own, C137_total_partial); the code confuses keys (C137_enabled_fails), fails for solvers enabled by hand, repeated or of unknown type (C137_null_fails, C137_second_fails, C137_type_fails) and loses optimizers (C137_leak_fails)."
  },
  {
   "property": "C138",
   "status": "partial",
   "theorems": [
    "Verif.Sets.C138_find_partial",
    "Verif.Sets.C138_after_sort_partial",
    "Verif.Sets.C138_put_fails",
    "Verif.Sets.C138_hole_fails",
    "Verif.Sets.C138_handles_partial",
    "Verif.Sets.C138_same_id_fails",
    "Verif.Sets.C138_centroid_fails"
   ],
   "note": "Proved for sets that are sorted by IDs, without holes and (for FindHandle, AddElement, RemoveElement) with different IDs (C138_find_partial, C138_handles_partial), as SortSet leaves them (C138_after_sort_partial). The code breaks the order in PutElement (C138_put_fails) and RemoveElement (C138_hole_fails), confuses elements of different types with one ID (C138_same_id_fails); comparison of centroids is no order (C138_centroid_fails)."
  },
  {
   "property": "C139",
   "status": "partial",
   "theorems": [
    "Verif.Dynamic.C139_formula_partial",
    "Verif.Dynamic.C139_inactive"
   ],
   "note": "Proved for all modelled classes where the formula is regular (C139_formula_partial, C139_inactive). stencil_variable and pow(real, variable) cannot be compiled and are left out; collapsed branches are modelled by their expression; the variation multiplier must be 1."
  },
  {
   "property": "C140",
   "status": "partial",
   "theorems": [
    "Verif.Dynamic.Stored.C140_values",
    "Verif.Dynamic.Stored.C140_no_leak_partial",
    "Verif.Dynamic.Stored.C140_leak_fails",
    "Verif.Dynamic.Stored.C140_empty_fails"
   ],
   "note": "Values, absence of use after delete and of double delete are proved (C140_values). The code leaks in operator= (C140_leak_fails) and fails on copies of empty objects (C140_empty_fails); without repeated assignment no memory is lost (C140_no_leak_partial)."
  },
  {
   "property": "C141",
   "status": "partial",
   "theorems": [
    "Verif.Handles.Links.C141_values_partial",
    "Verif.Handles.Links.C141_alias_fails",
    "Verif.Handles.Links.C141_dangling_fails",
    "Verif.Handles.Links.C141_mesh_fails"
   ],
   "note": "Proved for programs that do not assign to variables made from array elements and use one mesh (C141_values_partial). The code writes into the array, or into freed memory, when such a variable is assigned to (C141_alias_fails, C141_dangling_fails), and stores handles without their mesh (C141_mesh_fails)."
  },
  {
   "property": "C142",
   "status": "proved",
   "theorems": [
    "Verif.Parallel.Reduce.C142_integrate",
    "Verif.Parallel.Reduce.C142_numbers",
    "Verif.Parallel.Reduce.C142_before",
    "Verif.Parallel.Reduce.C142_numbering",
    "Verif.Parallel.Reduce.C142_total",
    "Verif.Parallel.Reduce.C142_types"
   ],
   "note": "Over exact arithmetic; MPI reductions as specified by MPI."
  },
  {
   "property": "C143",
   "status": "partial",
   "theorems": [
    "Verif.Dynamic.Block.C143_derivatives_partial",
    "Verif.Dynamic.Block.C143_operations",
    "Verif.Dynamic.Block.C143_branches",
    "Verif.Dynamic.Block.C143_stencil",
    "Verif.Dynamic.Block.C143_condition_fails",
    "Verif.Dynamic.Block.C143_empty_stencil_fails",
    "Verif.Dynamic.Block.C143_product_fails"
   ],
   "note": "Proved for all formulas without inverse, pseudo-inverse and division, over real numbers, with regular scalars and tables, conditions different from zero and, with an automatizator, products whose second matrix has as many columns as the first (C143_derivatives_partial); meaning of the operations in C143_operations, C143_branches, C143_stencil. The code loses terms of other products with derivatives (C143_product_fails), takes the second argument when the control is zero (C143_condition_fails) and reads outside of the arrays for a stencil without elements (C143_empty_stencil_fails). Missing: inverse_block_variable, pseudo_inverse_block_variable, division_block_variable."
  },
  {
   "property": "C144",
   "status": "proved",
   "theorems": [
    "Verif.Parallel.Neighbours.C144_neighbours",
    "Verif.Parallel.Neighbours.C144_deterministic",
    "Verif.Parallel.Neighbours.C144_mutual",
    "Verif.Parallel.Neighbours.C144_exchange"
   ],
   "note": "std::set as a list in increasing order; exit(-1) for a process -1 is part of the statement."
  },
  {
   "property": "C145",
   "status": "partial",
   "theorems": [
    "Verif.Copy.Element.C145_copy_partial",
    "Verif.Copy.Element.C145_total",
    "Verif.Copy.Element.C145_missing_tag_fails",
    "Verif.Copy.Element.C145_self_fails",
    "Verif.Copy.Element.C145_stale_fails"
   ],
   "note": "Proved for two different elements (C145_copy_partial) and total without assertions (C145_total). Copying an element to itself empties its arrays of variable size (C145_self_fails), sparse data of a stays where b has none (C145_stale_fails), and with assertions the copy stops at a tag that the mesh of a lacks (C145_missing_tag_fails). Handles in references are copied as they are; objects of fixed size arrays of variables are constructed over the old ones, which the model does not track."
  },
  {
   "property": "C146",
   "status": "proved",
   "theorems": [
    "Verif.Optim.Registry.C146_saved",
    "Verif.Optim.Registry.C146_available",
    "Verif.Optim.Registry.C146_unknown_type"
   ],
   "note": "All histories, both build configurations. A call with an unknown type deletes the saved optimizer and stores a null pointer (C146_unknown_type), as the statement says. Pointers kept by the caller over a replacement are not modelled."
  },
  {
   "property": "C147",
   "status": "partial",
   "theorems": [
    "Verif.Optim.Config.C147_line_partial",
    "Verif.Optim.Config.C147_ends",
    "Verif.Optim.Config.C147_stream_partial",
    "Verif.Optim.Config.C147_trailing_blank_fails",
    "Verif.Optim.Config.C147_word_fails",
    "Verif.Optim.Config.C147_empty_line_fails",
    "Verif.Optim.Config.C147_missing_file_fails"
   ],
   "note": "Proved for lines of two words and numbers that end with the last number (C147_line_partial, C147_stream_partial). A blank at the end adds a value that was never assigned (C147_trailing_blank_fails), a word among the numbers makes the loop endless (C147_word_fails, C147_ends), an empty line makes a parameter without a name (C147_empty_line_fails), a missing file is not reported (C147_missing_file_fails). Tokens that begin like a number and are none are not modelled."
  },
  {
   "property": "C148",
   "status": "partial",
   "theorems": [
    "Verif.Topology.Collapse.C148_edges",
    "Verif.Topology.Collapse.C148_faces_partial",
    "Verif.Topology.Collapse.C148_cells_partial",
    "Verif.Topology.Collapse.C148_mesh",
    "Verif.Topology.Collapse.C148_away",
    "Verif.Topology.Collapse.C148_no_duplicates",
    "Verif.Topology.Collapse.C148_position",
    "Verif.Topology.Collapse.C148_degenerate_cell_fails",
    "Verif.Topology.Collapse.C148_unchecked_fails"
   ],
   "note": "Proved for meshes in which no element meets the two nodes by its collapsing part alone and no face or cell has all parts of another one after the merge (Proper, Thin). The test for degenerate cells misses cells with repeated faces (C148_degenerate_cell_fails); without topology checks duplicates appear (C148_unchecked_fails). Transfer of data, hidden elements and a tag of the user with the name element_index are not modelled."
  },
  {
   "property": "C149",
   "status": "partial",
   "theorems": [
    "Verif.Topology.Checks.C149_begin_partial",
    "Verif.Topology.Checks.C149_dimension_partial",
    "Verif.Topology.Checks.C149_clean",
    "Verif.Topology.Checks.C149_no_error",
    "Verif.Topology.Checks.C149_mark",
    "Verif.Topology.Checks.C149_errors",
    "Verif.Topology.Checks.C149_not_enabled_fails",
    "Verif.Topology.Checks.C149_concave_fails",
    "Verif.Topology.Checks.C149_third_cell_fails",
    "Verif.Topology.Checks.C149_exception_leaves_element_fails",
    "Verif.Topology.Checks.C149_deleted_handle_fails"
   ],
   "note": "Exactness is proved for all checks made before creation, for faces of at most two cells (C149_third_cell_fails) and with two exceptions: the check of dimensions reports without being enabled (C149_not_enabled_fails), the check of convexity does nothing alone (C149_concave_fails). An exception at the end leaves the element (C149_exception_leaves_element_fails); a deleted element is returned as new (C149_deleted_handle_fails). The checks made after creation (orientation, planarity, order of edges, flattened cells, prohibited types) are given as a list of errors."
  },
  {
   "property": "C150",
   "status": "partial",
   "theorems": [
    "Verif.SolverFront.Condest.C150_bounds_partial",
    "Verif.SolverFront.Condest.C150_scaled_isometry",
    "Verif.SolverFront.Condest.C150_one_step_fails",
    "Verif.SolverFront.Condest.C150_below_one_fails",
    "Verif.SolverFront.Condest.C150_zero_start_fails"
   ],
   "note": "Bounds are proved for an exact Solve, nonzero random vectors, a tolerance below one and at least two steps. With one step the norm of the random vector is taken for an estimate and 1.0e+100 is never returned (C150_one_step_fails); the estimate can be below one (C150_below_one_fails); a zero random vector gives no number (C150_zero_start_fails). Exact reals; convergence of the power method is not proved."
  },
  {
   "property": "C151",
   "status": "partial",
   "theorems": [
    "Verif.Adjacency.Typed.C151_direct",
    "Verif.Adjacency.Typed.C151_two_levels",
    "Verif.Adjacency.Typed.C151_cells",
    "Verif.Adjacency.Typed.C151_node_cells",
    "Verif.Adjacency.Typed.C151_filtered",
    "Verif.Adjacency.Typed.C151_ends_partial",
    "Verif.Adjacency.Typed.C151_hidden_ends_fails"
   ],
   "note": "All of it is proved but for the ends of an edge without visible nodes, where getEnd reads behind the end of the array (C151_hidden_ends_fails); ends are proved for edges with two visible nodes among any number of hidden ones."
  },
  {
   "property": "C152",
   "status": "partial",
   "theorems": [
    "Verif.Storage.TagVector.C152_vector_to_tag_partial",
    "Verif.Storage.TagVector.C152_last_value_fails",
    "Verif.Storage.TagVector.C152_no_elements"
   ],
   "note": "CopyVector2Tag is proved. CopyTag2Vector makes the array one too short and writes behind its end for every mesh with elements of the type (C152_last_value_fails), so the round trip has no case to prove."
  },
  {
   "property": "C153",
   "status": "proved",
   "theorems": [
    "Verif.Names.Rename.C153_rename",
    "Verif.Names.Rename.C153_history"
   ],
   "note": "Names of tags are distinct, as CreateTag keeps them."
  },
  {
   "property": "C154",
   "status": "proved",
   "theorems": [
    "Verif.Adjacency.Check.C154_check"
   ],
   "note": "For meshes whose connections, if defined, lead to elements the loop visits (no hidden elements) and with connections back defined; connections that are not defined are empty."
  },
  {
   "property": "C155",
   "status": "partial",
   "theorems": [
    "Verif.Geometry.Mean.C155_edge",
    "Verif.Geometry.Mean.C155_face_partial",
    "Verif.Geometry.Mean.C155_triangle_quadratic",
    "Verif.Geometry.Mean.C155_cell_partial",
    "Verif.Geometry.Mean.C155_cell_constant",
    "Verif.Geometry.Mean.C155_plane_fails",
    "Verif.Geometry.Mean.C155_nonconvex_fails"
   ],
   "note": "Exact arithmetic with the decimal constants of the code. For faces and cells the average is taken over the triangles and tetrahedra of the code, with areas without sign and volumes with sign; that these are the average over the element holds for convex faces and closed cells and is not proved. For two dimensions the code divides zero by zero (C155_plane_fails), for faces that are not convex the result depends on the first node (C155_nonconvex_fails)."
  },
  {
   "property": "C156",
   "status": "partial",
   "theorems": [
    "Verif.Sets.C156_children",
    "Verif.Sets.C156_parents",
    "Verif.Sets.C156_elements",
    "Verif.Sets.C156_owner",
    "Verif.Sets.C156_owner_itself_fails"
   ],
   "note": "For hierarchies built by permitted operations (C19) and increasing lists of processors, as the library keeps them. SynchronizeSetElementsWithOwner also asks a set owned here to be sent to this processor (C156_owner_itself_fails)."
  },
  {
   "property": "C157",
   "status": "partial",
   "theorems": [
    "Verif.Geometry.Wachspress.C157_inside_partial",
    "Verif.Geometry.Wachspress.C157_side",
    "Verif.Geometry.Wachspress.C157_old_entries_fails"
   ],
   "note": "Exact arithmetic. Points closer to a side than the tolerance but not on it get the coefficients of the side and are not covered by the theorems. Entries that the map had before the call stay in it for points inside (C157_old_entries_fails). WachspressInterpolation3D is not modelled."
  },
  {
   "property": "C158",
   "status": "partial",
   "theorems": [
    "Verif.Search.Orient.C158_neighbours_partial",
    "Verif.Search.Orient.C158_opposite_fails"
   ],
   "note": "Proved for faces that share an edge with the first face, for example all faces of a tetrahedron. For other faces the code does nothing, because the reference to the edges of the current face stays with the first face; the centre of a cube is not found inside of the cube if the last face turns the other way (C158_opposite_fails)."
  },
  {
   "property": "C159",
   "status": "partial",
   "theorems": [
    "Verif.Dimensions.C159_coordinates_partial",
    "Verif.Dimensions.C159_rejected",
    "Verif.Dimensions.C159_user_tag_fails",
    "Verif.Dimensions.C159_user_size_fails",
    "Verif.Dimensions.C159_hidden_fails"
   ],
   "note": "Proved if some node is not hidden and the user has no tag COORD. The code takes over a tag COORD of the user (C159_user_tag_fails) or fails the assertion of CreateTag (C159_user_size_fails); if all nodes are hidden they lose their coordinates (C159_hidden_fails)."
  },
  {
   "property": "C160",
   "status": "partial",
   "theorems": [
    "Verif.Ray.C160_point_partial",
    "Verif.Ray.C160_missed",
    "Verif.Ray.C160_found",
    "Verif.Ray.C160_node_fails"
   ],
   "note": "In exact arithmetic, three dimensions, case of a face. Completeness is proved for plane faces with triangles above the thresholds 1e-25. The choice between two nodes of a side is wrong in the code: the entry is for the other node (C160_node_fails). Cases of nodes and cells are not modelled."
  },
  {
   "property": "C161",
   "status": "partial",
   "theorems": [
    "Verif.FaceInside.C161_plane_partial",
    "Verif.FaceInside.C161_far",
    "Verif.FaceInside.C161_edge",
    "Verif.FaceInside.C161_line_fails",
    "Verif.FaceInside.C161_two_dimensions_fails"
   ],
   "note": "In exact arithmetic. Proved for points of the plane of a face whose centre is not on the line of a side, for points farther than the tolerance, and for segments in three dimensions with zero tolerance. If the centre is on the line of a side all points of this line are found inside (C161_line_fails). In two dimensions the code reads entries that are not set and does not test the distance (C161_two_dimensions_fails)."
  },
  {
   "property": "C162",
   "status": "partial",
   "theorems": [
    "Verif.Same.C162_line",
    "Verif.Same.C162_plane_nodes",
    "Verif.Same.C162_plane_faces_partial",
    "Verif.Same.C162_tolerance_fails",
    "Verif.Same.C162_point_fails"
   ],
   "note": "In exact arithmetic with three dimensions. For faces proved with zero tolerance; with a tolerance the angle is compared by its cosine and points can be at many times the tolerance (C162_tolerance_fails). A first edge of zero length makes the test of a line hold for all edges (C162_point_fails). SameLine for nodes is not modelled."
  },
  {
   "property": "C163",
   "status": "proved",
   "theorems": [
    "Verif.EraseRange.C163_range",
    "Verif.EraseRange.C163_outside"
   ],
   "note": "Positions of iterators are within the set; positions after the end are rejected (C163_outside)."
  },
  {
   "property": "C164",
   "status": "partial",
   "theorems": [
    "Verif.Prepare.C164_values",
    "Verif.Prepare.C164_flags_partial",
    "Verif.Prepare.C164_orientation_fails"
   ],
   "note": "Proved for measure, centroid, barycentre and normal of elements that are not hidden. For the orientation the flag of faces is set also if the table asks for cells only, and no face is turned (C164_orientation_fails). Nodes are not moved in the histories, and the computation is taken as a function of the element."
  },
  {
   "property": "C165",
   "status": "proved",
   "theorems": [
    "Verif.PackData.C165_message",
    "Verif.PackData.C165_size"
   ],
   "note": "The library is any that conforms to a stated contract (Conforms), met by two concrete libraries. Products of sizes do not overflow; one value takes between 1 and INT_MAX bytes; a vector has less than 2^64 values."
  }
 ]
}