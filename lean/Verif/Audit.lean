import Verif.Handles.Props
import Verif.Markers.Props
import Verif.Containers.ArrayProps
import Verif.Containers.ChunkProps
import Verif.Storage.Props
import Verif.Topology.Props
import Verif.Sets.Props
import Verif.Sets.TreeProps
import Verif.Sort.Props
import Verif.Sets.SortedProps
import Verif.Iterators.Props
import Verif.Sparse.RowProps
import Verif.Sparse.MergerProps
import Verif.Autodiff.Props
import Verif.Autodiff.HessProps
import Verif.Table.Props
import Verif.Record.Props
import Verif.Unknowns.Props
import Verif.Dense.SolveProps
import Verif.Dense.CholProps
import Verif.Dense.TransformProps
import Verif.Text.Props
import Verif.Binary.Props
import Verif.OrderInfo.Props
import Verif.OrderInfo.Bounds
import Verif.Krylov.Props
import Verif.ILU2.Solver
import Verif.EdgeLoop.Props
import Verif.Split.Props
import Verif.Split.UniteProps
import Verif.Parallel.EnumProps
import Verif.Parallel.RequestsProps
import Verif.Search.Props
import Verif.Search.InsideProps
import Verif.Search.SegProps
import Verif.Search.SphereProps
import Verif.Geometry.Props
import Verif.Pmf.Props
import Verif.Pmf.PartsProps
import Verif.Topology.BridgeProps
import Verif.Parallel.BoundaryProps
import Verif.Resolve.Props
import Verif.Parallel.EquilProps
import Verif.Resolve.Equil
import Verif.Xml.Props
import Verif.Xml.ExprProps
import Verif.Xml.DataProps
import Verif.Incident.Cover
import Verif.Split.FaceTotal
import Verif.Split.CellFails
import Verif.Split.CellsFails
import Verif.Split.FacesFails
import Verif.Refs.Demo
import Verif.Names.Props
import Verif.Names.ResolveProps
import Verif.Adjacency.Props
import Verif.Parallel.RemoveProps
import Verif.Transfer.Props
import Verif.Layers.Props
import Verif.Migrate.Isolated
import Verif.Copy.Props
import Verif.Copy.TagProps
import Verif.CellNodes.Props
import Verif.Views.Props
import Verif.Dense.DetProps
import Verif.Residual.Props
import Verif.Residual.HessVecProps
import Verif.Sets.UniteProps
import Verif.Sets.DeleteProps
import Verif.Heap.Props
import Verif.Matching.Props
import Verif.Matching.Example
import Verif.Models.Props
import Verif.Partition.Rcm
import Verif.Partition.SkmProps
import Verif.Partition.Km
import Verif.Locks.Interval
import Verif.Locks.Assembly
import Verif.Locks.Service
import Verif.SolverFront.Registry
import Verif.SolverFront.Database
import Verif.SolverFront.Inner
import Verif.Optim.Params
import Verif.Optim.Buffer
import Verif.Optim.Interface
import Verif.Optim.Alternating
import Verif.Optim.Annealing
import Verif.Optim.Ttsp
import Verif.Sets.FindModel
import Verif.Sets.FindProps
import Verif.Dynamic.Model
import Verif.Dynamic.Props
import Verif.Dynamic.Stored
import Verif.Handles.Links
import Verif.Parallel.Reduce
import Verif.Dynamic.Block
import Verif.Parallel.Neighbours
import Verif.Copy.Element
import Verif.Optim.Registry
import Verif.Optim.Config
import Verif.Topology.Collapse
import Verif.Topology.Checks
import Verif.SolverFront.Condest
import Verif.Adjacency.Typed
import Verif.Storage.TagVector
import Verif.Names.Rename
import Verif.Adjacency.Check
import Verif.Geometry.Mean
import Verif.Sets.SendModel
import Verif.Sets.SendProps
import Verif.Geometry.Wachspress
import Verif.Search.Orient
import Verif.Storage.Dimensions
import Verif.Search.Ray
import Verif.Search.FaceInside
import Verif.Search.Same
import Verif.Sets.EraseRange
import Verif.Geometry.Prepare
import Verif.Parallel.PackData

/-!
# Axioms of the property theorems

Only `propext`, `Classical.choice` and `Quot.sound` may be printed.
-/

#print axioms Verif.Handles.C01_roundtrip
#print axioms Verif.Handles.C01_injective
#print axioms Verif.Handles.C01_valid
#print axioms Verif.Handles.C01_ordered
#print axioms Verif.Handles.C01_percompose
#print axioms Verif.Markers.C02_create_fresh
#print axioms Verif.Markers.C02_createPrivate_fresh
#print axioms Verif.Markers.C02_create_succeeds_iff
#print axioms Verif.Markers.C02_createPrivate_succeeds_iff
#print axioms Verif.Markers.C03_get_defined
#print axioms Verif.Markers.C03_set
#print axioms Verif.Markers.C03_rem
#print axioms Verif.Markers.C03_private
#print axioms Verif.Markers.C04_release
#print axioms Verif.Markers.C04_releasePrivate
#print axioms Verif.Markers.C04_reuse
#print axioms Verif.Markers.C04_created_unset
#print axioms Verif.Containers.C05_array_history_partial
#print axioms Verif.Containers.C05_constructors
#print axioms Verif.Containers.C05_eraseRange_fails
#print axioms Verif.Containers.C05_eraseEmptyRange_fails
#print axioms Verif.Containers.C05_replaceShrink_fails
#print axioms Verif.Containers.C05_pushBackSelf_fails
#print axioms Verif.Containers.C06_chunk_array
#print axioms Verif.Containers.C06_resize
#print axioms Verif.Containers.C06_bulk_partial
#print axioms Verif.Containers.C06_bulk_preserves
#print axioms Verif.Containers.C06_bulk_fails
#print axioms Verif.Containers.C06_linked_array
#print axioms Verif.Storage.C07_slots
#print axioms Verif.Storage.C07_create
#print axioms Verif.Storage.C07_destroy
#print axioms Verif.Storage.C08_reorder
#print axioms Verif.Storage.C09_columns
#print axioms Verif.Storage.C09_write
#print axioms Verif.Storage.C09_delData
#print axioms Verif.Storage.C09_haveData
#print axioms Verif.Storage.C09_createTag
#print axioms Verif.Storage.C09_deleteTag
#print axioms Verif.Storage.C10_partial
#print axioms Verif.Storage.C10_fails
#print axioms Verif.Topology.C11_mirror_partial
#print axioms Verif.Topology.C11_types
#print axioms Verif.Topology.C11_connect_fails
#print axioms Verif.Topology.C12_adjacency
#print axioms Verif.Topology.C13_adjacency
#print axioms Verif.Topology.C14_find
#print axioms Verif.Topology.C14_create_again
#print axioms Verif.Sets.C15_unite_partial
#print axioms Verif.Sets.C15_unite_fails
#print axioms Verif.Sets.C15_unite_empty
#print axioms Verif.Sets.C15_subtract
#print axioms Verif.Sets.C15_intersect
#print axioms Verif.Sets.C15_set_union
#print axioms Verif.Sets.C15_set_difference
#print axioms Verif.Sets.C15_set_intersection
#print axioms Verif.Sets.C16_histories_partial
#print axioms Verif.Sets.C16_self_fails
#print axioms Verif.Sets.C16_erase
#print axioms Verif.Sets.C17_unsorted_partial
#print axioms Verif.Sets.C17_repeated_fails
#print axioms Verif.Sets.C17_unite_fails
#print axioms Verif.Sets.C17_sorted_partial
#print axioms Verif.Sets.C17_sorted_fails
#print axioms Verif.Sets.C18_unsorted_fails
#print axioms Verif.Sets.C18_sorted_partial
#print axioms Verif.Sets.C18_sorted_fails
#print axioms Verif.Sets.C19_forest_partial
#print axioms Verif.Sets.C19_operations_partial
#print axioms Verif.Sets.C19_count_partial
#print axioms Verif.Sets.C19_readd_fails
#print axioms Verif.Sort.C20_sort_handles
#print axioms Verif.Sort.C20_invalid_handles
#print axioms Verif.Sort.C21_partial
#print axioms Verif.Sort.C21_fails
#print axioms Verif.Iterators.C22_begin_end
#print axioms Verif.Iterators.C22_expected_meaning
#print axioms Verif.Iterators.C22_number_of_partial
#print axioms Verif.Iterators.C22_swap_fails
#print axioms Verif.Iterators.C22_end_modification
#print axioms Verif.Iterators.C22_next_handle
#print axioms Verif.Iterators.C23_single_type_partial
#print axioms Verif.Iterators.C23_deleted_fails
#print axioms Verif.Iterators.C23_hidden_fails
#print axioms Verif.Iterators.C23_types_fails
#print axioms Verif.Iterators.C23_prev_handle_partial
#print axioms Verif.Iterators.C23_prev_handle_fails
#print axioms Verif.Iterators.C23_prev_handle_mesh_fails
#print axioms Verif.Sparse.C24_access
#print axioms Verif.Sparse.C24_history
#print axioms Verif.Sparse.C24_rowvec
#print axioms Verif.Sparse.C24_rowvec_out_of_range
#print axioms Verif.Sparse.C25_merge
#print axioms Verif.Sparse.C25_merge_sums
#print axioms Verif.Sparse.C25_is_sorted
#print axioms Verif.Sparse.C25_repeated_columns
#print axioms Verif.Sparse.C26_accumulate
#print axioms Verif.Sparse.C26_clear
#print axioms Verif.Sparse.C26_read
#print axioms Verif.Sparse.C26_sorted_partial
#print axioms Verif.Sparse.C26_sorted_fails
#print axioms Verif.Sparse.C26_push_repeated_fails
#print axioms Verif.Sparse.C27_matvec
#print axioms Verif.Sparse.C27_matvec_transpose
#print axioms Verif.Sparse.C27_adjoint
#print axioms Verif.Sparse.C28_partition
#print axioms Verif.Autodiff.C29_value
#print axioms Verif.Autodiff.C29_gather_partial
#print axioms Verif.Autodiff.C29_gradient_partial
#print axioms Verif.Autodiff.C29_partial_derivatives
#print axioms Verif.Autodiff.C29_pow_fails
#print axioms Verif.Autodiff.C30_programs_partial
#print axioms Verif.Autodiff.C30_self_fails
#print axioms Verif.Autodiff.C31_expression_partial
#print axioms Verif.Autodiff.C31_programs_partial
#print axioms Verif.Autodiff.C31_getVariable
#print axioms Verif.Autodiff.C31_reciprocal_fails
#print axioms Verif.Autodiff.C31_exp_fails
#print axioms Verif.Autodiff.C31_pow_fails
#print axioms Verif.Autodiff.C31_product_fails
#print axioms Verif.Table.C32_interpolation
#print axioms Verif.Table.C32_nodes
#print axioms Verif.Table.C32_single_node_fails
#print axioms Verif.Unknowns.C33_enumerate_partial
#print axioms Verif.Unknowns.C33_status_fails
#print axioms Verif.Unknowns.C33_block_fails
#print axioms Verif.Unknowns.C33_multi_fails
#print axioms Verif.Unknowns.C34_register
#print axioms Verif.Unknowns.C34_unregister
#print axioms Verif.Unknowns.C34_unregister_absent
#print axioms Verif.Unknowns.C34_activity
#print axioms Verif.Record.C35_record_retrieve
#print axioms Verif.Record.C35_getData_setData
#print axioms Verif.Dense.C36_normal_equations
#print axioms Verif.Dense.C36_square
#print axioms Verif.Dense.C36_tiny_fails
#print axioms Verif.Dense.C36_empty_fails
#print axioms Verif.Dense.C37_cholesky
#print axioms Verif.Dense.C37_succeeds
#print axioms Verif.Dense.C38_transform
#print axioms Verif.Text.C39_encode
#print axioms Verif.Text.C39_roundtrip
#print axioms Verif.Text.C39_alphabet
#print axioms Verif.Text.C40_split
#print axioms Verif.Binary.C41_integers_partial
#print axioms Verif.Binary.C41_high_fails
#print axioms Verif.Binary.C41_order
#print axioms Verif.OrderInfo.C42_partial
#print axioms Verif.OrderInfo.C42_fails
#print axioms Verif.OrderInfo.C43_update_partial
#print axioms Verif.OrderInfo.C43_rows_partial
#print axioms Verif.OrderInfo.C43_product_partial
#print axioms Verif.OrderInfo.C43_no_deadlock_partial
#print axioms Verif.OrderInfo.C43_terminates_partial
#print axioms Verif.OrderInfo.C43_prepare_partial
#print axioms Verif.OrderInfo.C43_empty_fails
#print axioms Verif.OrderInfo.C44_accumulate_partial
#print axioms Verif.OrderInfo.C44_terminates_partial
#print axioms Verif.OrderInfo.C45_overlapping_fails
#print axioms Verif.OrderInfo.C45_restore_partial
#print axioms Verif.ILU2.C46_ilu2_success
#print axioms Verif.Krylov.C46_bcgs_partial
#print axioms Verif.Krylov.C46_bcgs_success_partial
#print axioms Verif.Krylov.C46_bcgs_stop_partial
#print axioms Verif.Krylov.C46_bcgs_iterations_partial
#print axioms Verif.Krylov.C46_bcgs_noprec_fails
#print axioms Verif.Krylov.C46_bcgsl_residual
#print axioms Verif.Krylov.C46_bcgsl_success
#print axioms Verif.Krylov.C46_bcgsl_stale_fails
#print axioms Verif.Topology.C47_delete
#print axioms Verif.Topology.C47_delete_hides
#print axioms Verif.Topology.C47_delete_hides_all
#print axioms Verif.Topology.C47_end
#print axioms Verif.Sets.C48_handle_partial
#print axioms Verif.Sets.C48_global_id_partial
#print axioms Verif.Sets.C48_holes_long_partial
#print axioms Verif.Sets.C48_holes_fails
#print axioms Verif.Sets.C48_other_comparator_fails
#print axioms Verif.Sets.C48_after_clear_fails
#print axioms Verif.Sets.C48_unsorted
#print axioms Verif.Sets.C49_partial
#print axioms Verif.Sets.C49_holes_fails
#print axioms Verif.Sets.C49_put_fails
#print axioms Verif.Dense.C50_symmetric_storage
#print axioms Verif.Dense.C51_cross
#print axioms Verif.Dense.C51_dot
#print axioms Verif.OrderInfo.C52_overlap_partial
#print axioms Verif.OrderInfo.C53_bounds_partial
#print axioms Verif.OrderInfo.C53_three_fails
#print axioms Verif.OrderInfo.C53_nested_fails
#print axioms Verif.ILU2.C54_triangular
#print axioms Verif.ILU2.C54_exact
#print axioms Verif.ILU2.C54_linear
#print axioms Verif.ILU2.C55_unchanged
#print axioms Verif.ILU2.C55_defined
#print axioms Verif.ILU2.C55_no_scaling_fails
#print axioms Verif.EdgeLoop.C56_fix_changes
#print axioms Verif.EdgeLoop.C56_fix_sound_partial
#print axioms Verif.EdgeLoop.C56_fix_complete_partial
#print axioms Verif.EdgeLoop.C56_false_fails
#print axioms Verif.EdgeLoop.C56_true_fails
#print axioms Verif.EdgeLoop.C56_check_complete_partial
#print axioms Verif.EdgeLoop.C56_check_sound_partial
#print axioms Verif.EdgeLoop.C56_check_open_fails
#print axioms Verif.EdgeLoop.C56_check_hidden_fails
#print axioms Verif.EdgeLoop.C56_cell_fails
#print axioms Verif.EdgeLoop.C57_nodes
#print axioms Verif.EdgeLoop.C57_mask_partial
#print axioms Verif.EdgeLoop.C57_mask_fails
#print axioms Verif.EdgeLoop.C57_after_fix_partial
#print axioms Verif.Split.C58_loop_partial
#print axioms Verif.Split.C58_loop_plain
#print axioms Verif.Split.C58_loop_guided
#print axioms Verif.Split.C58_elsewhere
#print axioms Verif.Split.C58_hidden_fails
#print axioms Verif.Split.C59_loop
#print axioms Verif.Split.C59_loop_wrap
#print axioms Verif.Split.C59_elsewhere
#print axioms Verif.Split.C59_test_partial
#print axioms Verif.Split.C59_test_disjoint_fails
#print axioms Verif.Split.C59_third_fails
#print axioms Verif.Parallel.C60_terminates
#print axioms Verif.Parallel.C60_ghosts_equal_owner
#print axioms Verif.Parallel.C60_values_partial
#print axioms Verif.Parallel.C60_elsewhere
#print axioms Verif.Parallel.C60_absent_fails
#print axioms Verif.Parallel.C60_empty_fails
#print axioms Verif.Parallel.C61_terminates
#print axioms Verif.Parallel.C61_each_ghost_once
#print axioms Verif.Parallel.C61_order_irrelevant
#print axioms Verif.Parallel.C61_sum
#print axioms Verif.Parallel.C61_elsewhere
#print axioms Verif.Parallel.C62_terminates
#print axioms Verif.Parallel.C62_set
#print axioms Verif.Parallel.C62_elsewhere
#print axioms Verif.Parallel.C62_or
#print axioms Verif.Parallel.C62_xor
#print axioms Verif.Parallel.C62_and_partial
#print axioms Verif.Parallel.C62_and_fails
#print axioms Verif.Parallel.C63_terminates
#print axioms Verif.Parallel.C63_exact
#print axioms Verif.Parallel.C63_total
#print axioms Verif.Parallel.C63_owned_first
#print axioms Verif.Parallel.C63_copies
#print axioms Verif.Parallel.C64_terminates
#print axioms Verif.Parallel.C64_exact
#print axioms Verif.Parallel.C64_copies
#print axioms Verif.Parallel.C64_distributed
#print axioms Verif.Parallel.C65_chunks
#print axioms Verif.Parallel.C65_reports_partial
#print axioms Verif.Parallel.C65_large_fails
#print axioms Verif.Search.C66_answers
#print axioms Verif.Search.C66_sound
#print axioms Verif.Search.C66_found_partial
#print axioms Verif.Search.C66_empty_fails
#print axioms Verif.Search.C66_large_fails
#print axioms Verif.Search.C67_solid
#print axioms Verif.Search.C67_convex_inside
#print axioms Verif.Search.C67_outside_partial
#print axioms Verif.Search.C67_polygon_partial
#print axioms Verif.Search.C67_planar_fails
#print axioms Verif.Search.C67_small_fails
#print axioms Verif.Search.C68_cells
#print axioms Verif.Search.C68_faces
#print axioms Verif.Search.C68_found_partial
#print axioms Verif.Search.C68_mixed_fails
#print axioms Verif.Search.C68_coplanar_fails
#print axioms Verif.Search.C69_cells_partial
#print axioms Verif.Search.C69_faces_partial
#print axioms Verif.Search.C69_found_partial
#print axioms Verif.Search.C69_degenerate_fails
#print axioms Verif.Search.C69_float_fails
#print axioms Verif.Geometry.C70_search_partial
#print axioms Verif.Geometry.C70_convex_partial
#print axioms Verif.Geometry.C70_tiny_fails
#print axioms Verif.Geometry.C71_convex_partial
#print axioms Verif.Geometry.C71_general_partial
#print axioms Verif.Geometry.C71_tiny_fails
#print axioms Verif.Geometry.C71_cavity_fails
#print axioms Verif.Geometry.C72_convex_partial
#print axioms Verif.Geometry.C72_general_partial
#print axioms Verif.Geometry.C73_normal
#print axioms Verif.Geometry.C73_flat
#print axioms Verif.Geometry.C73_barycenter
#print axioms Verif.Geometry.C73_closed
#print axioms Verif.Geometry.C74_check_partial
#print axioms Verif.Geometry.C74_free
#print axioms Verif.Geometry.C74_fix_partial
#print axioms Verif.Geometry.C74_tiny_fails
#print axioms Verif.Pmf.C75_save_load_partial
#print axioms Verif.Pmf.C75_file_determines_partial
#print axioms Verif.Pmf.C75_save_unchanged_partial
#print axioms Verif.Pmf.C75_skipped
#print axioms Verif.Pmf.C75_empty_bytes_fails
#print axioms Verif.Pmf.C75_cell_order_fails
#print axioms Verif.Pmf.C75_long_name_fails
#print axioms Verif.Pmf.C76_parts_read_once
#print axioms Verif.Pmf.C76_messages_partial
#print axioms Verif.Pmf.C76_first_twice_fails
#print axioms Verif.Pmf.C77_one_reader
#print axioms Verif.Pmf.C77_owner_of_reader
#print axioms Verif.Pmf.C77_agreement
#print axioms Verif.Pmf.C77_enough_processors
#print axioms Verif.Xml.C78_write_read_partial
#print axioms Verif.Xml.C78_injective_partial
#print axioms Verif.Xml.C78_root_stub_fails
#print axioms Verif.Xml.C78_underscore_fails
#print axioms Verif.Xml.C78_quote_fails
#print axioms Verif.Xml.C78_contents_fails
#print axioms Verif.Xml.C79_document_partial
#print axioms Verif.Xml.C79_unambiguous
#print axioms Verif.Xml.C79_mismatch
#print axioms Verif.Xml.C79_classes
#print axioms Verif.Xml.C79_text_after_comment_fails
#print axioms Verif.Xml.C79_bare_value_fails
#print axioms Verif.Xml.C79_space_in_close_fails
#print axioms Verif.Xml.C79_truncated_fails
#print axioms Verif.Xml.C80_evaluate_partial
#print axioms Verif.Xml.C80_multiplier_partial
#print axioms Verif.Xml.C80_cut
#print axioms Verif.Xml.C80_no_multiplier
#print axioms Verif.Xml.C80_minus_after_bracket_fails
#print axioms Verif.Xml.C80_minus_after_operation_fails
#print axioms Verif.Xml.C80_exponent_fails
#print axioms Verif.Xml.C80_unbalanced_fails
#print axioms Verif.Xml.C80_error_ignored_fails
#print axioms Verif.Xml.C81_words
#print axioms Verif.Xml.C81_dense
#print axioms Verif.Xml.C81_sparse_partial
#print axioms Verif.Xml.C81_runs
#print axioms Verif.Xml.C81_set_size
#print axioms Verif.Xml.C81_integer
#print axioms Verif.Xml.C81_bulk
#print axioms Verif.Xml.C81_reference
#print axioms Verif.Xml.C81_real
#print axioms Verif.Xml.C81_variable_partial
#print axioms Verif.Xml.C81_none_fails
#print axioms Verif.Xml.C81_derivatives_fails
#print axioms Verif.Xml.C81_empty_record_fails
#print axioms Verif.Xml.C81_last_word_fails
#print axioms Verif.Xml.C81_one_by_one_fails
#print axioms Verif.Xml.C81_nested_brackets_fails
#print axioms Verif.Xml.C81_declaration_partial
#print axioms Verif.Xml.C81_remote_fails
#print axioms Verif.Topology.C82_bridge
#print axioms Verif.Topology.C82_other
#print axioms Verif.Topology.C82_back_front
#print axioms Verif.Topology.C82_neighbour
#print axioms Verif.Topology.C82_neighbouring_cells
#print axioms Verif.Topology.C82_repeated_fails
#print axioms Verif.Topology.C82_three_cells_fails
#print axioms Verif.Parallel.C83_distributed
#print axioms Verif.Parallel.C83_assert
#print axioms Verif.Parallel.C83_terminates
#print axioms Verif.Parallel.C83_no_cells_fails
#print axioms Verif.Topology.C83_boundary
#print axioms Verif.Topology.C83_lists_partial
#print axioms Verif.Topology.C83_hidden_fails
#print axioms Verif.Topology.C83_three_cells_fails
#print axioms Verif.Resolve.C84_processors
#print axioms Verif.Resolve.C84_owner
#print axioms Verif.Resolve.C84_numbers
#print axioms Verif.Resolve.C84_distributed
#print axioms Verif.Resolve.C84_schedule
#print axioms Verif.Resolve.C84_terminates
#print axioms Verif.Resolve.C84_boundary_fails
#print axioms Verif.Resolve.C84_chain_fails
#print axioms Verif.Resolve.C84_part_fails
#print axioms Verif.Parallel.C85_agreed
#print axioms Verif.Parallel.C85_cells
#print axioms Verif.Parallel.C85_owned
#print axioms Verif.Parallel.C85_lower
#print axioms Verif.Parallel.C85_terminates
#print axioms Verif.Parallel.C85_schedule
#print axioms Verif.Resolve.C85_resolve
#print axioms Verif.Incident.C86_outer
#print axioms Verif.Incident.C86_order
#print axioms Verif.Incident.C86_terminates
#print axioms Verif.Incident.C86_closed
#print axioms Verif.Incident.C86_uses
#print axioms Verif.Incident.C86_polygon
#print axioms Verif.Incident.C86_complete
#print axioms Verif.Incident.C86_best
#print axioms Verif.Incident.C86_shortest_fails
#print axioms Verif.Incident.C86_faces_fails
#print axioms Verif.Split.C87_area_fails
#print axioms Verif.Split.C87_hole_fails
#print axioms Verif.Split.C87_nodes_fails
#print axioms Verif.Split.C87_noop
#print axioms Verif.Split.C87_reach
#print axioms Verif.Split.C87_faces
#print axioms Verif.Split.C87_cover
#print axioms Verif.Split.C87_cells
#print axioms Verif.Split.C87_closed
#print axioms Verif.Split.C87_elsewhere
#print axioms Verif.Split.C87_nodes
#print axioms Verif.Split.C87_defined
#print axioms Verif.Split.C88_unused_fails
#print axioms Verif.Split.C88_cavity_fails
#print axioms Verif.Split.C88_noop
#print axioms Verif.Split.C88_reach
#print axioms Verif.Split.C88_cells
#print axioms Verif.Split.C88_uses
#print axioms Verif.Split.C88_elsewhere
#print axioms Verif.Split.C88_nodes
#print axioms Verif.Split.C88_defined
#print axioms Verif.Split.C89_test_fails
#print axioms Verif.Split.C89_touch_fails
#print axioms Verif.Split.C89_repeat_fails
#print axioms Verif.Split.C89_third_fails
#print axioms Verif.Split.C89_refuse
#print axioms Verif.Split.C89_reach
#print axioms Verif.Split.C89_elements
#print axioms Verif.Split.C89_cell
#print axioms Verif.Split.C89_even
#print axioms Verif.Split.C89_rest
#print axioms Verif.Split.C89_nodes
#print axioms Verif.Split.C89_protect
#print axioms Verif.Split.C89_defined
#print axioms Verif.Split.C89_test
#print axioms Verif.Split.C90_test_partial
#print axioms Verif.Split.C90_test_fails
#print axioms Verif.Split.C90_closed_fails
#print axioms Verif.Split.C90_refuse
#print axioms Verif.Split.C90_new
#print axioms Verif.Split.C90_reach
#print axioms Verif.Split.C90_elements
#print axioms Verif.Split.C90_rest
#print axioms Verif.Split.C90_face
#print axioms Verif.Split.C90_cells
#print axioms Verif.Split.C90_nodes
#print axioms Verif.Split.C90_closed
#print axioms Verif.Split.C90_together
#print axioms Verif.Split.C90_defined
#print axioms Verif.Refs.C91_remote_fails
#print axioms Verif.Refs.C91_links_fails
#print axioms Verif.Refs.C91_histories_partial
#print axioms Verif.Refs.C91_apply_partial
#print axioms Verif.Refs.C91_end_partial
#print axioms Verif.Refs.C91_deleteSet
#print axioms Verif.Names.C92_getSet_partial
#print axioms Verif.Names.C92_create_partial
#print axioms Verif.Names.C92_destroy_partial
#print axioms Verif.Names.C92_endMod_partial
#print axioms Verif.Names.C92_prefix_partial
#print axioms Verif.Names.C92_hidden_fails
#print axioms Verif.Names.C92_unique_fails
#print axioms Verif.Names.C92_clear_fails
#print axioms Verif.Names.C92_copy_fails
#print axioms Verif.Names.C93_resolve_partial
#print axioms Verif.Names.C93_agree_partial
#print axioms Verif.Names.C93_zero_fails
#print axioms Verif.Adjacency.C94_history_partial
#print axioms Verif.Adjacency.C94_removeUpper
#print axioms Verif.Adjacency.C94_removeLower
#print axioms Verif.Adjacency.C94_restoreUpper_partial
#print axioms Verif.Adjacency.C94_restoreLower_partial
#print axioms Verif.Adjacency.C94_back_fails
#print axioms Verif.Adjacency.C94_direction_fails
#print axioms Verif.Adjacency.C94_face_fails
#print axioms Verif.Parallel.C95_elements_partial
#print axioms Verif.Parallel.C95_partition_partial
#print axioms Verif.Parallel.C95_cells
#print axioms Verif.Parallel.C95_terminates_partial
#print axioms Verif.Parallel.C95_marker_fails
#print axioms Verif.Parallel.C96_elements_partial
#print axioms Verif.Parallel.C96_partition_partial
#print axioms Verif.Parallel.C96_terminates_partial
#print axioms Verif.Parallel.C96_nonghost_fails
#print axioms Verif.Parallel.C96_lower_fails
#print axioms Verif.Transfer.C97_gather
#print axioms Verif.Transfer.C97_message
#print axioms Verif.Transfer.C97_twice_fails
#print axioms Verif.Transfer.C98_completes
#print axioms Verif.Transfer.C98_elements
#print axioms Verif.Transfer.C98_partition
#print axioms Verif.Transfer.C98_values
#print axioms Verif.Transfer.C98_listed
#print axioms Verif.Layers.C99_skin
#print axioms Verif.Layers.C99_completes
#print axioms Verif.Layers.C99_only
#print axioms Verif.Layers.C99_layers_partial
#print axioms Verif.Layers.C99_faces
#print axioms Verif.Layers.C99_partition
#print axioms Verif.Layers.C99_values
#print axioms Verif.Layers.C99_node_fails
#print axioms Verif.Migrate.C100_isolated_fails
#print axioms Verif.Migrate.C100_completes_partial
#print axioms Verif.Migrate.C100_partition_partial
#print axioms Verif.Migrate.C100_own_partial
#print axioms Verif.Migrate.C100_cells_partial
#print axioms Verif.Migrate.C100_values_partial
#print axioms Verif.Migrate.C101_only
#print axioms Verif.Migrate.C101_faces
#print axioms Verif.Migrate.C101_layers_partial
#print axioms Verif.Migrate.C101_layers_fails
#print axioms Verif.Copy.C102_partial
#print axioms Verif.Copy.C102_assign_partial
#print axioms Verif.Copy.C102_sparse_fails
#print axioms Verif.Copy.C102_fails
#print axioms Verif.Copy.C103_partial
#print axioms Verif.Copy.C103_original
#print axioms Verif.Copy.C103_reorder_fails
#print axioms Verif.Copy.C103_assign_fails
#print axioms Verif.Copy.C104_partial
#print axioms Verif.Copy.C104_duplicate_partial
#print axioms Verif.Copy.C104_self_fails
#print axioms Verif.Copy.C104_mesh_fails
#print axioms Verif.CellNodes.C105_hex
#print axioms Verif.CellNodes.C105_prism
#print axioms Verif.CellNodes.C105_pyramid_partial
#print axioms Verif.CellNodes.C105_tet_partial
#print axioms Verif.CellNodes.C105_hidden_fails
#print axioms Verif.CellNodes.C105_polygon_partial
#print axioms Verif.CellNodes.C105_any
#print axioms Verif.CellNodes.C105_polygon_type
#print axioms Verif.CellNodes.C105_type_partial
#print axioms Verif.CellNodes.C105_type_fails
#print axioms Verif.CellNodes.C105_created_fails
#print axioms Verif.Views.C106_value
#print axioms Verif.Views.C106_copy
#print axioms Verif.Views.C106_mul_partial
#print axioms Verif.Views.C106_mul_empty_fails
#print axioms Verif.Views.C106_trace
#print axioms Verif.Views.C106_dot
#print axioms Verif.Views.C106_mul_variable_partial
#print axioms Verif.Views.C106_mul_variable_fails
#print axioms Verif.Views.C106_mul_variable_outside_fails
#print axioms Verif.Views.C107_matrix_partial
#print axioms Verif.Views.C107_window_partial
#print axioms Verif.Views.C107_compound_partial
#print axioms Verif.Views.C107_coefficient
#print axioms Verif.Views.C107_mul_matrix
#print axioms Verif.Views.C107_mul_window
#print axioms Verif.Views.C107_transpose_fails
#print axioms Verif.Views.C107_symmetrize_fails
#print axioms Verif.Views.C107_overlap_fails
#print axioms Verif.Views.C107_zero_fails
#print axioms Verif.Views.C107_rebind_fails
#print axioms Verif.Views.C107_target_fails
#print axioms Verif.Dense.Det.C108_det_partial
#print axioms Verif.Dense.Det.C108_integer
#print axioms Verif.Dense.Det.C108_small_tolerance
#print axioms Verif.Dense.Det.C108_pivot_fails
#print axioms Verif.Dense.Det.C108_coef_fails
#print axioms Verif.Residual.C109_rescale_partial
#print axioms Verif.Residual.C109_rescale_solutions
#print axioms Verif.Residual.C109_rescale_idempotent
#print axioms Verif.Residual.C109_rescale_zero_fails
#print axioms Verif.Residual.C109_norm
#print axioms Verif.Residual.C109_norm_zero
#print axioms Verif.Residual.C109_clear
#print axioms Verif.Residual.C109_hessian_fails
#print axioms Verif.Residual.C109_setInterval_partial
#print axioms Verif.Residual.C109_setInterval_fails
#print axioms Verif.Residual.C109_locks_partial
#print axioms Verif.Residual.C109_locks_copy_fails
#print axioms Verif.Residual.C109_locks_interval_fails
#print axioms Verif.Residual.C109_assemble_partial
#print axioms Verif.Residual.C109_assemble_order
#print axioms Verif.Residual.C110_row_partial
#print axioms Verif.Residual.C110_matVec_partial
#print axioms Verif.Residual.C110_mixed_fails
#print axioms Verif.Residual.C110_double_fails
#print axioms Verif.Residual.C110_count_fails
#print axioms Verif.Residual.C110_short_fails
#print axioms Verif.Residual.C110_empty_fails
#print axioms Verif.Sets.C111_unite_partial
#print axioms Verif.Sets.C111_last_fails
#print axioms Verif.Sets.C111_holes_fails
#print axioms Verif.Sets.C111_tail_fails
#print axioms Verif.Sets.C112_add_partial
#print axioms Verif.Sets.C112_last_fails
#print axioms Verif.Sets.C112_centroid_fails
#print axioms Verif.Sets.C112_centroid_partial
#print axioms Verif.Sets.C113_put_partial
#print axioms Verif.Sets.C113_few_fails
#print axioms Verif.Sets.C113_put_sorted
#print axioms Verif.Sets.C114_tree_partial
#print axioms Verif.Sets.C114_delete_partial
#print axioms Verif.Sets.C114_sibling_fails
#print axioms Verif.Heap.C115_heap
#print axioms Verif.Heap.C116_custom_partial
#print axioms Verif.Heap.C116_change_fails
#print axioms Verif.Heap.C116_change_equal_fails
#print axioms Verif.Heap.C116_change_partial
#print axioms Verif.Matching.C117_permutation_partial
#print axioms Verif.Matching.C117_tie_fails
#print axioms Verif.Matching.C118_dual
#print axioms Verif.Matching.C118_largest_sum
#print axioms Verif.Matching.C118_transversal
#print axioms Verif.Matching.C118_largest_product
#print axioms Verif.Matching.C118_real
#print axioms Verif.Models.C119_registry_partial
#print axioms Verif.Models.C119_entry_order
#print axioms Verif.Models.C119_scalar_names_fails
#print axioms Verif.Models.C119_coupling_fails
#print axioms Verif.Models.C119_coupling_partial
#print axioms Verif.Models.C120_fill_partial
#print axioms Verif.Models.C120_steps
#print axioms Verif.Models.C120_coupling_inactive_fails
#print axioms Verif.Models.C121_least
#print axioms Verif.Models.C121_all
#print axioms Verif.Models.C122_initialize_partial
#print axioms Verif.Models.C122_late_entry_fails
#print axioms Verif.Partition.C123_parts_partial
#print axioms Verif.Partition.C123_used_partial
#print axioms Verif.Partition.C123_idle_fails
#print axioms Verif.Partition.C124_parts
#print axioms Verif.Partition.C124_nearest
#print axioms Verif.Partition.C124_far_fails
#print axioms Verif.Partition.C125_parts_partial
#print axioms Verif.Partition.C125_idle_fails
#print axioms Verif.Locks.C126_refines
#print axioms Verif.Locks.C126_no_leak
#print axioms Verif.Locks.C127_sum
#print axioms Verif.Locks.C127_exclusive
#print axioms Verif.Locks.C127_progress
#print axioms Verif.Locks.C127_unlocked_fails
#print axioms Verif.Locks.C128_life_partial
#print axioms Verif.Locks.C128_empty_fails
#print axioms Verif.Locks.C128_test_fails
#print axioms Verif.SolverFront.C129_listed
#print axioms Verif.SolverFront.C129_name_partial
#print axioms Verif.SolverFront.C129_name_fails
#print axioms Verif.SolverFront.C129_copy_partial
#print axioms Verif.SolverFront.C129_copy_fails
#print axioms Verif.SolverFront.C130_listed_partial
#print axioms Verif.SolverFront.C130_file
#print axioms Verif.SolverFront.C130_default
#print axioms Verif.SolverFront.C130_finalize
#print axioms Verif.SolverFront.C130_attribute_fails
#print axioms Verif.SolverFront.C130_get_partial
#print axioms Verif.SolverFront.C130_get_fails
#print axioms Verif.SolverFront.C131_history_partial
#print axioms Verif.SolverFront.C131_clear_fails
#print axioms Verif.SolverFront.C131_old_fails
#print axioms Verif.Optim.C132_last
#print axioms Verif.Optim.C132_empty_fails
#print axioms Verif.Optim.C132_successful
#print axioms Verif.Optim.C132_unique_partial
#print axioms Verif.Optim.C132_unique_fails
#print axioms Verif.Optim.C133_announced_partial
#print axioms Verif.Optim.C133_announced_fails
#print axioms Verif.Optim.C133_range_partial
#print axioms Verif.Optim.C133_range_fails
#print axioms Verif.Optim.C133_closest
#print axioms Verif.Optim.C134_use
#print axioms Verif.Optim.C134_current
#print axioms Verif.Optim.C134_restart_partial
#print axioms Verif.Optim.C134_restart_small_fails
#print axioms Verif.Optim.C134_restart_good_fails
#print axioms Verif.Optim.C134_restart_one_fails
#print axioms Verif.Optim.Alternating.C135_listed
#print axioms Verif.Optim.Alternating.C135_total
#print axioms Verif.Optim.Alternating.C135_two_fails
#print axioms Verif.Optim.Alternating.C135_better_partial
#print axioms Verif.Optim.Alternating.C135_repeat_fails
#print axioms Verif.Optim.Alternating.C135_better_fails
#print axioms Verif.Optim.Alternating.C135_restart_fails
#print axioms Verif.Optim.Annealing.C136_jump
#print axioms Verif.Optim.Annealing.C136_within
#print axioms Verif.Optim.Annealing.C136_single_fails
#print axioms Verif.Optim.Annealing.C136_strict_fails
#print axioms Verif.Optim.Ttsp.C137_enabled_partial
#print axioms Verif.Optim.Ttsp.C137_enabled_fails
#print axioms Verif.Optim.Ttsp.C137_own
#print axioms Verif.Optim.Ttsp.C137_total_partial
#print axioms Verif.Optim.Ttsp.C137_null_fails
#print axioms Verif.Optim.Ttsp.C137_second_fails
#print axioms Verif.Optim.Ttsp.C137_type_fails
#print axioms Verif.Optim.Ttsp.C137_leak_fails
#print axioms Verif.Sets.C138_find_partial
#print axioms Verif.Sets.C138_after_sort_partial
#print axioms Verif.Sets.C138_put_fails
#print axioms Verif.Sets.C138_hole_fails
#print axioms Verif.Sets.C138_handles_partial
#print axioms Verif.Sets.C138_same_id_fails
#print axioms Verif.Sets.C138_centroid_fails
#print axioms Verif.Dynamic.C139_formula_partial
#print axioms Verif.Dynamic.C139_inactive
#print axioms Verif.Dynamic.Stored.C140_values
#print axioms Verif.Dynamic.Stored.C140_no_leak_partial
#print axioms Verif.Dynamic.Stored.C140_leak_fails
#print axioms Verif.Dynamic.Stored.C140_empty_fails
#print axioms Verif.Handles.Links.C141_values_partial
#print axioms Verif.Handles.Links.C141_alias_fails
#print axioms Verif.Handles.Links.C141_dangling_fails
#print axioms Verif.Handles.Links.C141_mesh_fails
#print axioms Verif.Parallel.Reduce.C142_integrate
#print axioms Verif.Parallel.Reduce.C142_numbers
#print axioms Verif.Parallel.Reduce.C142_before
#print axioms Verif.Parallel.Reduce.C142_numbering
#print axioms Verif.Parallel.Reduce.C142_total
#print axioms Verif.Parallel.Reduce.C142_types
#print axioms Verif.Dynamic.Block.C143_derivatives_partial
#print axioms Verif.Dynamic.Block.C143_operations
#print axioms Verif.Dynamic.Block.C143_branches
#print axioms Verif.Dynamic.Block.C143_stencil
#print axioms Verif.Dynamic.Block.C143_condition_fails
#print axioms Verif.Dynamic.Block.C143_empty_stencil_fails
#print axioms Verif.Dynamic.Block.C143_product_fails
#print axioms Verif.Parallel.Neighbours.C144_neighbours
#print axioms Verif.Parallel.Neighbours.C144_deterministic
#print axioms Verif.Parallel.Neighbours.C144_mutual
#print axioms Verif.Parallel.Neighbours.C144_exchange
#print axioms Verif.Copy.Element.C145_copy_partial
#print axioms Verif.Copy.Element.C145_total
#print axioms Verif.Copy.Element.C145_missing_tag_fails
#print axioms Verif.Copy.Element.C145_self_fails
#print axioms Verif.Copy.Element.C145_stale_fails
#print axioms Verif.Optim.Registry.C146_saved
#print axioms Verif.Optim.Registry.C146_available
#print axioms Verif.Optim.Registry.C146_unknown_type
#print axioms Verif.Optim.Config.C147_line_partial
#print axioms Verif.Optim.Config.C147_ends
#print axioms Verif.Optim.Config.C147_stream_partial
#print axioms Verif.Optim.Config.C147_trailing_blank_fails
#print axioms Verif.Optim.Config.C147_word_fails
#print axioms Verif.Optim.Config.C147_empty_line_fails
#print axioms Verif.Optim.Config.C147_missing_file_fails
#print axioms Verif.Topology.Collapse.C148_edges
#print axioms Verif.Topology.Collapse.C148_faces_partial
#print axioms Verif.Topology.Collapse.C148_cells_partial
#print axioms Verif.Topology.Collapse.C148_mesh
#print axioms Verif.Topology.Collapse.C148_away
#print axioms Verif.Topology.Collapse.C148_no_duplicates
#print axioms Verif.Topology.Collapse.C148_position
#print axioms Verif.Topology.Collapse.C148_degenerate_cell_fails
#print axioms Verif.Topology.Collapse.C148_unchecked_fails
#print axioms Verif.Topology.Checks.C149_begin_partial
#print axioms Verif.Topology.Checks.C149_dimension_partial
#print axioms Verif.Topology.Checks.C149_clean
#print axioms Verif.Topology.Checks.C149_no_error
#print axioms Verif.Topology.Checks.C149_mark
#print axioms Verif.Topology.Checks.C149_errors
#print axioms Verif.Topology.Checks.C149_not_enabled_fails
#print axioms Verif.Topology.Checks.C149_concave_fails
#print axioms Verif.Topology.Checks.C149_third_cell_fails
#print axioms Verif.Topology.Checks.C149_exception_leaves_element_fails
#print axioms Verif.Topology.Checks.C149_deleted_handle_fails
#print axioms Verif.SolverFront.Condest.C150_bounds_partial
#print axioms Verif.SolverFront.Condest.C150_scaled_isometry
#print axioms Verif.SolverFront.Condest.C150_one_step_fails
#print axioms Verif.SolverFront.Condest.C150_below_one_fails
#print axioms Verif.SolverFront.Condest.C150_zero_start_fails
#print axioms Verif.Adjacency.Typed.C151_direct
#print axioms Verif.Adjacency.Typed.C151_two_levels
#print axioms Verif.Adjacency.Typed.C151_cells
#print axioms Verif.Adjacency.Typed.C151_node_cells
#print axioms Verif.Adjacency.Typed.C151_filtered
#print axioms Verif.Adjacency.Typed.C151_ends_partial
#print axioms Verif.Adjacency.Typed.C151_hidden_ends_fails
#print axioms Verif.Storage.TagVector.C152_vector_to_tag_partial
#print axioms Verif.Storage.TagVector.C152_last_value_fails
#print axioms Verif.Storage.TagVector.C152_no_elements
#print axioms Verif.Names.Rename.C153_rename
#print axioms Verif.Names.Rename.C153_history
#print axioms Verif.Adjacency.Check.C154_check
#print axioms Verif.Geometry.Mean.C155_edge
#print axioms Verif.Geometry.Mean.C155_face_partial
#print axioms Verif.Geometry.Mean.C155_triangle_quadratic
#print axioms Verif.Geometry.Mean.C155_cell_partial
#print axioms Verif.Geometry.Mean.C155_cell_constant
#print axioms Verif.Geometry.Mean.C155_plane_fails
#print axioms Verif.Geometry.Mean.C155_nonconvex_fails
#print axioms Verif.Sets.C156_children
#print axioms Verif.Sets.C156_parents
#print axioms Verif.Sets.C156_elements
#print axioms Verif.Sets.C156_owner
#print axioms Verif.Sets.C156_owner_itself_fails
#print axioms Verif.Geometry.Wachspress.C157_inside_partial
#print axioms Verif.Geometry.Wachspress.C157_side
#print axioms Verif.Geometry.Wachspress.C157_old_entries_fails
#print axioms Verif.Search.Orient.C158_neighbours_partial
#print axioms Verif.Search.Orient.C158_opposite_fails
#print axioms Verif.Dimensions.C159_coordinates_partial
#print axioms Verif.Dimensions.C159_rejected
#print axioms Verif.Dimensions.C159_user_tag_fails
#print axioms Verif.Dimensions.C159_user_size_fails
#print axioms Verif.Dimensions.C159_hidden_fails
#print axioms Verif.Ray.C160_point_partial
#print axioms Verif.Ray.C160_missed
#print axioms Verif.Ray.C160_found
#print axioms Verif.Ray.C160_node_fails
#print axioms Verif.FaceInside.C161_plane_partial
#print axioms Verif.FaceInside.C161_far
#print axioms Verif.FaceInside.C161_edge
#print axioms Verif.FaceInside.C161_line_fails
#print axioms Verif.FaceInside.C161_two_dimensions_fails
#print axioms Verif.Same.C162_line
#print axioms Verif.Same.C162_plane_nodes
#print axioms Verif.Same.C162_plane_faces_partial
#print axioms Verif.Same.C162_tolerance_fails
#print axioms Verif.Same.C162_point_fails
#print axioms Verif.EraseRange.C163_range
#print axioms Verif.EraseRange.C163_outside
#print axioms Verif.Prepare.C164_values
#print axioms Verif.Prepare.C164_flags_partial
#print axioms Verif.Prepare.C164_orientation_fails
#print axioms Verif.PackData.C165_message
#print axioms Verif.PackData.C165_size
