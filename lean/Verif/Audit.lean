import Verif.Props.C01
import Verif.Props.C02
import Verif.Props.C03
import Verif.Props.C04
import Verif.Props.C05
import Verif.Props.C06
import Verif.Props.C07
import Verif.Props.C08
import Verif.Props.C09
import Verif.Props.C10
import Verif.Props.C11
import Verif.Props.C12
import Verif.Props.C13
import Verif.Props.C14
import Verif.Props.C15
import Verif.Props.C16
import Verif.Props.C17
import Verif.Props.C18
import Verif.Props.C19
import Verif.Props.C20
import Verif.Props.C21
import Verif.Props.C22
import Verif.Props.C23
import Verif.Props.C24
import Verif.Props.C25
import Verif.Props.C26
import Verif.Props.C27
import Verif.Props.C28
import Verif.Props.C29
import Verif.Props.C30
import Verif.Props.C31
import Verif.Props.C32
import Verif.Props.C32Dir
import Verif.Props.C33
import Verif.Props.C34
import Verif.Props.C35
import Verif.Props.C36
import Verif.Props.C37
import Verif.Props.C38
import Verif.Props.C39
import Verif.Props.C40
import Verif.Props.C41
import Verif.Props.C42
import Verif.Props.C43
import Verif.Props.C44
import Verif.Props.C45
import Verif.Props.C46
import Verif.Props.C47
import Verif.Props.C48
import Verif.Props.C49
import Verif.Props.C50
import Verif.Props.C51
import Verif.Props.C52
import Verif.Props.C53
import Verif.Props.C54
import Verif.Props.C55
import Verif.Props.C55b
import Verif.Props.C56
import Verif.Props.C56Choice
import Verif.Props.C56World
import Verif.Props.C57
import Verif.Props.C57Cavity
import Verif.Props.C57Examples
import Verif.Props.C57Lost
import Verif.Props.C58
import Verif.Props.C58Loss
import Verif.Props.C59
import Verif.Props.C60
import Verif.Props.C61
import Verif.Props.C62
import Verif.Props.C63
import Verif.Props.C64
import Verif.Props.C65
import Verif.Props.C66
import Verif.Props.C67
import Verif.Props.C68
import Verif.Props.C69
import Verif.Props.C70
import Verif.Props.C71
import Verif.Props.C72
import Verif.Props.C73
import Verif.Props.C74
import Verif.Props.C75
import Verif.Props.C76
import Verif.Props.C77
import Verif.Props.C78
import Verif.Props.C79
import Verif.Props.C80
import Verif.Props.C81
import Verif.Props.C82
import Verif.Props.C83
import Verif.Props.C84

/-! Axiom audit: every property theorem, with the axioms it depends on. -/

#print axioms OmegaH.C01_offset_scan_exact
#print axioms OmegaH.C01_threaded_scan_eq_serial
#print axioms OmegaH.C01_threaded_offset_scan_exact
#print axioms OmegaH.C01_too_many_threads_refuted
#print axioms OmegaH.C01_fill_right
#print axioms OmegaH.C01_threaded_fill_right
#print axioms OmegaH.C02_sort_by_keys
#print axioms OmegaH.C02_stable_sort_unique
#print axioms OmegaH.C02_equal_keys_contiguous
#print axioms OmegaH.C02_rejects
#print axioms OmegaH.C02_sort_small_range
#print axioms OmegaH.C03_collect_marked
#print axioms OmegaH.C03_collect_marked_nonbinary_refuted
#print axioms OmegaH.C03_mark_image
#print axioms OmegaH.C03_mark_collect_round_trip
#print axioms OmegaH.C03_invert_injective_map
#print axioms OmegaH.C03_collect_invert
#print axioms OmegaH.C03_invert_marks
#print axioms OmegaH.C03_invert_marks_involution
#print axioms OmegaH.C04_invert_by_atomics
#print axioms OmegaH.C04_invert_funnel
#print axioms OmegaH.C04_invert_by_sorting
#print axioms OmegaH.C04_inverse_offsets_unique
#print axioms OmegaH.C04_ascending_inverse_unique
#print axioms OmegaH.C04_sorting_deterministic
#print axioms OmegaH.C04_atomics_order_varies
#print axioms OmegaH.C04_atomics_out_of_range
#print axioms OmegaH.C05_unmap
#print axioms OmegaH.C05_unmap_out_of_range
#print axioms OmegaH.C05_map_into
#print axioms OmegaH.C05_map_into_schedule_independent
#print axioms OmegaH.C05_map_into_noninjective_refuted
#print axioms OmegaH.C05_map_onto
#print axioms OmegaH.C05_scatter_gather
#print axioms OmegaH.C05_permute
#print axioms OmegaH.C05_invert_permutation
#print axioms OmegaH.C05_permute_inverse
#print axioms OmegaH.C05_compound_maps
#print axioms OmegaH.C05_unmap_compound
#print axioms OmegaH.C05_expand
#print axioms OmegaH.C05_unmap_range
#print axioms OmegaH.C05_map_into_range
#print axioms OmegaH.C05_map_value_into
#print axioms OmegaH.C06_get_degrees
#print axioms OmegaH.C06_degrees_of_offsets
#print axioms OmegaH.C06_offsets_of_degrees
#print axioms OmegaH.C06_invert_fan
#print axioms OmegaH.C06_fan_reduce
#print axioms OmegaH.C06_fan_sum
#print axioms OmegaH.C06_fan_max
#print axioms OmegaH.C06_fan_min
#print axioms OmegaH.C06_fan_sum_i8_overflow_refuted
#print axioms OmegaH.C06_multiply_fans
#print axioms OmegaH.C06_mark_fan_preimage
#print axioms OmegaH.C07_partition_sizes
#print axioms OmegaH.C07_linear_owners
#print axioms OmegaH.C07_deal_bijection
#print axioms OmegaH.C07_linear_owner_onto
#print axioms OmegaH.C07_no_ranks
#print axioms OmegaH.C07_out_of_range_refuted
#print axioms OmegaH.C07_find_total_globals
#print axioms OmegaH.C08_slices_agree_with_partition
#print axioms OmegaH.C08_slices_tile
#print axioms OmegaH.C09_unpack_pack
#print axioms OmegaH.C09_pack_unpack
#print axioms OmegaH.C09_pack_overflow_refuted
#print axioms OmegaH.C09_align_is_rotate_then_flip
#print axioms OmegaH.C09_index_agrees
#print axioms OmegaH.C09_edge_index_agrees
#print axioms OmegaH.C09_compound
#print axioms OmegaH.C09_compound_dispatch
#print axioms OmegaH.C09_compound_quads_refuted
#print axioms OmegaH.C09_inverse
#print axioms OmegaH.C09_inverse_bad_rotation_refuted
#print axioms OmegaH.C09_align_ev2v
#print axioms OmegaH.C09_which_down_ignored
#print axioms OmegaH.C10_down_templates_enumerate_faces
#print axioms OmegaH.C10_polygon_sides
#print axioms OmegaH.C10_up_templates
#print axioms OmegaH.C10_down_composition
#print axioms OmegaH.C10_coherent_orientation
#print axioms OmegaH.C10_sides_face_outwards
#print axioms OmegaH.C10_opposite_is_complement
#print axioms OmegaH.C10_euler_characteristic
#print axioms OmegaH.C10_degree_of_vertex_quirk
#print axioms OmegaH.C11_invert_adj
#print axioms OmegaH.C11_invert_adj_deterministic
#print axioms OmegaH.C11_order_of_repeats_refuted
#print axioms OmegaH.C11_degree_limit_refuted
#print axioms OmegaH.C12_find_unique_deg
#print axioms OmegaH.C12_form_uses
#print axioms OmegaH.C12_find_unique
#print axioms OmegaH.C12_reflect_down
#print axioms OmegaH.C12_derive
#print axioms OmegaH.C13_add_exact_partial
#print axioms OmegaH.C13_add_refuted
#print axioms OmegaH.C13_sub_exact_partial
#print axioms OmegaH.C13_neg_exact_partial
#print axioms OmegaH.C13_neg_refuted
#print axioms OmegaH.C13_compare_exact
#print axioms OmegaH.C13_shift_exact
#print axioms OmegaH.C13_to_double
#print axioms OmegaH.C13_round_error
#print axioms OmegaH.C13_to_double_exact
#print axioms OmegaH.C13_max_exponent
#print axioms OmegaH.C13_int128_sum
#print axioms OmegaH.C13_repro_sum
#print axioms OmegaH.C13_exact_when_representable
#print axioms OmegaH.C13_accuracy
#print axioms OmegaH.C13_order_and_threads_irrelevant
#print axioms OmegaH.C13_partition_irrelevant
#print axioms OmegaH.C13_subnormal_refuted
#print axioms OmegaH.C14_encode_is_base64
#print axioms OmegaH.C14_encoded_length
#print axioms OmegaH.C14_decode_partial
#print axioms OmegaH.C14_roundtrip
#print axioms OmegaH.C14_read_encoded
#print axioms OmegaH.C14_alphabet
#print axioms OmegaH.C14_signed_char_refuted
#print axioms OmegaH.C14_trailing_refuted
#print axioms OmegaH.C14_padding_inside_refuted
#print axioms OmegaH.C15_axes_to_transpose_and_back
#print axioms OmegaH.C15_transpose_to_axes_and_back
#print axioms OmegaH.C15_untranspose
#print axioms OmegaH.C15_lex_is_value_order
#print axioms OmegaH.C15_key_bijection
#print axioms OmegaH.C15_no_ties
#print axioms OmegaH.C15_clamped
#print axioms OmegaH.C16_blocks_distinct_and_accounted
#print axioms OmegaH.C16_destroy_returns_all
#print axioms OmegaH.C16_reuse_same_class
#print axioms OmegaH.C16_failure_means_exhausted
#print axioms OmegaH.C16_deallocate
#print axioms OmegaH.C16_huge_request_refuted
#print axioms OmegaH.C17_freed_exactly_with_last_handle_partial
#print axioms OmegaH.C17_no_leak_partial
#print axioms OmegaH.C17_parallel_copy_keeps_size
#print axioms OmegaH.C17_self_assignment_refuted
#print axioms OmegaH.C17_self_move_refuted
#print axioms OmegaH.C17_parallel_move_leak_refuted
#print axioms OmegaH.C17_identity_refuted
#print axioms OmegaH.C18_poll_refuted
#print axioms OmegaH.C18_poll_is_inverted
#print axioms OmegaH.C18_poll_done_stays
#print axioms OmegaH.C18_poll_loop_never_ends
#print axioms OmegaH.C18_get_partial
#print axioms OmegaH.C18_ready
#print axioms OmegaH.C19_bcast
#print axioms OmegaH.C19_bcast_string_exact
#print axioms OmegaH.C19_bcast_string_partial
#print axioms OmegaH.C19_bcast_string_refuted
#print axioms OmegaH.C20_exch_ranks
#print axioms OmegaH.C20_inverse_ranks
#print axioms OmegaH.C20_new
#print axioms OmegaH.C20_exch
#print axioms OmegaH.C20_inverse
#print axioms OmegaH.C20_reduce
#print axioms OmegaH.C20_reduce_determined
#print axioms OmegaH.C20_destinations
#print axioms OmegaH.C20_globals
#print axioms OmegaH.C20_variable
#print axioms OmegaH.C20_sources
#print axioms OmegaH.C21_update
#print axioms OmegaH.C21_update_suggested
#print axioms OmegaH.C21_from_globals
#print axioms OmegaH.C21_from_globals_suggested
#print axioms OmegaH.C21_globals
#print axioms OmegaH.C21_globals_dense
#print axioms OmegaH.C21_globals_unshared
#print axioms OmegaH.C21_reduce
#print axioms OmegaH.C21_suggestion_refuted
#print axioms OmegaH.C22_migrate
#print axioms OmegaH.C22_plan
#print axioms OmegaH.C22_global_connectivity
#print axioms OmegaH.C23_ghost_partial
#print axioms OmegaH.C23_by_verts
#print axioms OmegaH.C23_by_elems
#print axioms OmegaH.C23_hypercubes_refuted
#print axioms OmegaH.C23_set_parting
#print axioms OmegaH.C24_bi_partition
#print axioms OmegaH.C24_odd
#print axioms OmegaH.C24_preserves
#print axioms OmegaH.C24_order
#print axioms OmegaH.C24_bisect
#print axioms OmegaH.C24_not_power_of_two
#print axioms OmegaH.C25_find
#print axioms OmegaH.C25_independent
#print axioms OmegaH.C25_partition_independent
#print axioms OmegaH.C25_nan_never_ends
#print axioms OmegaH.C25_tie_never_ends
#print axioms OmegaH.C26_set
#print axioms OmegaH.C26_range
#print axioms OmegaH.C26_range_end
#print axioms OmegaH.C26_unite
#print axioms OmegaH.C26_concat
#print axioms OmegaH.C26_plus
#print axioms OmegaH.C26_maybe
#print axioms OmegaH.C26_star
#print axioms OmegaH.C26_regex
#print axioms OmegaH.C26_readable
#print axioms OmegaH.C26_unreadable_range
#print axioms OmegaH.C26_maybe_transitions
#print axioms OmegaH.C27_deterministic
#print axioms OmegaH.C27_simplify
#print axioms OmegaH.C27_regex
#print axioms OmegaH.C27_lexer
#print axioms OmegaH.C28_tokens
#print axioms OmegaH.C28_sound
#print axioms OmegaH.C28_unique
#print axioms OmegaH.C28_split_partial
#print axioms OmegaH.C28_split_refuted
#print axioms OmegaH.C28_empty_refuted
#print axioms OmegaH.C29_first
#print axioms OmegaH.C29_string
#print axioms OmegaH.C29_order
#print axioms OmegaH.C29_productive
#print axioms OmegaH.C30_built
#print axioms OmegaH.C30_derivation
#print axioms OmegaH.C30_safe
#print axioms OmegaH.C30_language
#print axioms OmegaH.C30_unambiguous
#print axioms OmegaH.C31_consistent
#print axioms OmegaH.C31_layout
#print axioms OmegaH.C31_nesting
#print axioms OmegaH.C31_unindented_partial
#print axioms OmegaH.C31_grammar_partial
#print axioms OmegaH.C31_refuted
#print axioms OmegaH.C31_mixed_refuted
#print axioms OmegaH.C31_empty_refuted
#print axioms OmegaH.C31_sized_partial
#print axioms OmegaH.C32_values
#print axioms OmegaH.C32_endian
#print axioms OmegaH.C32_roundtrip_partial
#print axioms OmegaH.C32_truncated
#print axioms OmegaH.C32_other_rank
#print axioms OmegaH.C32_writes
#print axioms OmegaH.C32_refuted
#print axioms OmegaH.C32_array_refuted
#print axioms OmegaH.C32_comps_refuted
#print axioms OmegaH.C32_directory_partial
#print axioms OmegaH.C33_scan
#print axioms OmegaH.C33_no_tag
#print axioms OmegaH.C33_unended
#print axioms OmegaH.C33_bare_refuted
#print axioms OmegaH.C34_configs_are_triangulations
#print axioms OmegaH.C34_interior_edges
#print axioms OmegaH.C34_all_triangulations
#print axioms OmegaH.C34_counts
#print axioms OmegaH.C34_configs_distinct
#print axioms OmegaH.C35_find_loop
#print axioms OmegaH.C35_any_input_partial
#print axioms OmegaH.C35_in_bounds
#print axioms OmegaH.C35_open_fan_refuted
#print axioms OmegaH.C36_split_domain
#print axioms OmegaH.C36_new_cells
#print axioms OmegaH.C36_new_triangles
#print axioms OmegaH.C36_new_edges
#print axioms OmegaH.C37_unmap_adjacency
#print axioms OmegaH.C37_live_domains
#print axioms OmegaH.C37_products
#print axioms OmegaH.C37_product_nodup
#print axioms OmegaH.C37_dead_marks
#print axioms OmegaH.C37_verts_onto
#print axioms OmegaH.C37_collapse
#print axioms OmegaH.C38_swap_edge
#print axioms OmegaH.C38_swap_arrays
#print axioms OmegaH.C39_numbering
#print axioms OmegaH.C39_adapt
#print axioms OmegaH.C39_shared_representative
#print axioms OmegaH.C40_box1
#print axioms OmegaH.C40_box2
#print axioms OmegaH.C40_box3
#print axioms OmegaH.C40_rounding
#print axioms OmegaH.C40_classify
#print axioms OmegaH.C40_classify_verts
#print axioms OmegaH.C40_entities_distinct
#print axioms OmegaH.C40_class_sets
#print axioms OmegaH.C41_codes
#print axioms OmegaH.C41_codes_limit
#print axioms OmegaH.C41_children_tile
#print axioms OmegaH.C41_children_inner
#print axioms OmegaH.C41_2to1_partial
#print axioms OmegaH.C41_2to1_zeroed
#print axioms OmegaH.C41_2to1_settled
#print axioms OmegaH.C41_2to1_refuted
#print axioms OmegaH.C41_topology
#print axioms OmegaH.C42_unmap_mesh
#print axioms OmegaH.C42_closed
#print axioms OmegaH.C42_owners
#print axioms OmegaH.C43_unary_elementwise
#print axioms OmegaH.C43_divide_each_by
#print axioms OmegaH.C43_binary_elementwise
#print axioms OmegaH.C43_size_mismatch_rejected
#print axioms OmegaH.C43_bitwise
#print axioms OmegaH.C43_multiply_each
#print axioms OmegaH.C43_divide_each
#print axioms OmegaH.C43_divide_each_maybe_zero
#print axioms OmegaH.C43_divide_empty_refuted
#print axioms OmegaH.C43_ternary_each
#print axioms OmegaH.C43_get_component
#print axioms OmegaH.C43_set_component
#print axioms OmegaH.C43_arrays_equal
#print axioms OmegaH.C43_get_sum
#print axioms OmegaH.C43_get_max
#print axioms OmegaH.C43_get_min
#print axioms OmegaH.C43_find_last
#print axioms OmegaH.C43_is_sorted
#print axioms OmegaH.C43_interleave
#print axioms OmegaH.C43_get_component_interleave
#print axioms OmegaH.C43_interleave_get_component
#print axioms OmegaH.C44_totals_partial
#print axioms OmegaH.C44_listing_refuted
#print axioms OmegaH.C44_use_after_free_refuted
#print axioms OmegaH.C44_listing_is_first_and_last
#print axioms OmegaH.C45_all_received
#print axioms OmegaH.C45_bounded
#print axioms OmegaH.C45_no_deadlock
#print axioms OmegaH.C45_terminates
#print axioms OmegaH.C45_result
#print axioms OmegaH.C46_value_semantics
#print axioms OmegaH.C46_cast
#print axioms OmegaH.C46_no_leak
#print axioms OmegaH.C47_coalesce_refuted
#print axioms OmegaH.C47_coalesce_partial
#print axioms OmegaH.C48_same_surface
#print axioms OmegaH.C48_swap_one_key
#print axioms OmegaH.C48_product_arrays
#print axioms OmegaH.C49_balance
#print axioms OmegaH.C49_plan_order_needed
#print axioms OmegaH.C50_children_partial
#print axioms OmegaH.C50_vertex_children_refuted
#print axioms OmegaH.C50_unmap_parents_partial
#print axioms OmegaH.C50_unmap_vertices
#print axioms OmegaH.C50_vertex_parents_refuted
#print axioms OmegaH.C50_leaves
#print axioms OmegaH.C51_roundtrip_partial
#print axioms OmegaH.C51_six_refuted
#print axioms OmegaH.C51_quote_refuted
#print axioms OmegaH.C51_special_refuted
#print axioms OmegaH.C51_line_refuted
#print axioms OmegaH.C51_unsorted_refuted
#print axioms OmegaH.C51_empty_refuted
#print axioms OmegaH.C51_reordered
#print axioms OmegaH.C52_session
#print axioms OmegaH.C52_history
#print axioms OmegaH.C52_data_partial
#print axioms OmegaH.C52_one_writer
#print axioms OmegaH.C52_numbers
#print axioms OmegaH.C52_restart_refuted
#print axioms OmegaH.C52_explicit_refuted
#print axioms OmegaH.C52_reopen_refuted
#print axioms OmegaH.C53_pointwise_partial
#print axioms OmegaH.C53_sound_partial
#print axioms OmegaH.C53_builtins
#print axioms OmegaH.C53_initial
#print axioms OmegaH.C53_register
#print axioms OmegaH.C53_component_refuted
#print axioms OmegaH.C53_choice_refuted
#print axioms OmegaH.C53_index_refuted
#print axioms OmegaH.C53_division_refuted
#print axioms OmegaH.C53_no_points_refuted
#print axioms OmegaH.C53_zero_matrix
#print axioms OmegaH.C54_compiled
#print axioms OmegaH.C54_again
#print axioms OmegaH.C54_failures_differ
#print axioms OmegaH.C55_hexes_partial
#print axioms OmegaH.C55_hexes_refuted
#print axioms OmegaH.C55_quads
#print axioms OmegaH.C55_neighbours
#print axioms OmegaH.C55_hex_array
#print axioms OmegaH.C55_quad_array
#print axioms OmegaH.C55_box_hexes
#print axioms OmegaH.C55_symmetric_quads
#print axioms OmegaH.C55_symmetric_hexes
#print axioms OmegaH.C55_symmetric_neighbours
#print axioms OmegaH.C55_symmetric_coords2
#print axioms OmegaH.C55_symmetric_coords3
#print axioms OmegaH.C56_offered
#print axioms OmegaH.C56_class
#print axioms OmegaH.C56_candidates
#print axioms OmegaH.C56_rails
#print axioms OmegaH.C57_refine_partial
#print axioms OmegaH.C57_coarsen_partial
#print axioms OmegaH.C57_coarsen_verts
#print axioms OmegaH.C57_swap_partial
#print axioms OmegaH.C57_copy
#print axioms OmegaH.C57_pointwise_1d_refuted
#print axioms OmegaH.C57_face_flux_refuted
#print axioms OmegaH.C58_step
#print axioms OmegaH.C58_momentum
#print axioms OmegaH.C58_momentum_total
#print axioms OmegaH.C58_density_partial
#print axioms OmegaH.C58_density_refuted
#print axioms OmegaH.C59_density_partial
#print axioms OmegaH.C59_density_ends_partial
#print axioms OmegaH.C59_rounds_go_on
#print axioms OmegaH.C59_density_ends_refuted
#print axioms OmegaH.C59_momentum_partial
#print axioms OmegaH.C59_momentum_ends_partial
#print axioms OmegaH.C59_momentum_refuted
#print axioms OmegaH.C60_choice
#print axioms OmegaH.C60_swap3d_partial
#print axioms OmegaH.C60_swap2d_partial
#print axioms OmegaH.C60_inverted_refuted
#print axioms OmegaH.C60_triangles_refuted
#print axioms OmegaH.C61_derived_partial
#print axioms OmegaH.C61_determined
#print axioms OmegaH.C61_relaxed
#print axioms OmegaH.C61_order_refuted
#print axioms OmegaH.C62_down
#print axioms OmegaH.C62_up
#print axioms OmegaH.C62_up_all
#print axioms OmegaH.C62_closures
#print axioms OmegaH.C62_entities
#print axioms OmegaH.C63_neighbours
#print axioms OmegaH.C63_layers_partial
#print axioms OmegaH.C63_check_partial
#print axioms OmegaH.C63_swap_partial
#print axioms OmegaH.C63_layers_refuted
#print axioms OmegaH.C63_bad_refuted
#print axioms OmegaH.C63_lone_refuted
#print axioms OmegaH.C63_check_refuted
#print axioms OmegaH.C64_compare_partial
#print axioms OmegaH.C64_distribution_partial
#print axioms OmegaH.C64_order_partial
#print axioms OmegaH.C64_types_refuted
#print axioms OmegaH.C64_components_refuted
#print axioms OmegaH.C64_tolerance_refuted
#print axioms OmegaH.C65_globals
#print axioms OmegaH.C65_same_on_any_ranks
#print axioms OmegaH.C65_order
#print axioms OmegaH.C65_owners
#print axioms OmegaH.C65_cavity_owners
#print axioms OmegaH.C65_places
#print axioms OmegaH.C65_places_apart
#print axioms OmegaH.C66_count
#print axioms OmegaH.C66_total
#print axioms OmegaH.C66_histogram_partial
#print axioms OmegaH.C66_histogram_sum_partial
#print axioms OmegaH.C66_goals_partial
#print axioms OmegaH.C66_status
#print axioms OmegaH.C66_average
#print axioms OmegaH.C66_count_refuted
#print axioms OmegaH.C67_no_field
#print axioms OmegaH.C67_outside
#print axioms OmegaH.C67_step_partial
#print axioms OmegaH.C67_stall_partial
#print axioms OmegaH.C67_nothing_lost_partial
#print axioms OmegaH.C67_empty
#print axioms OmegaH.C67_metric_partial
#print axioms OmegaH.C67_metric_stall_partial
#print axioms OmegaH.C67_stall_refuted
#print axioms OmegaH.C67_empty_refuted
#print axioms OmegaH.C68_resolve
#print axioms OmegaH.C68_derive
#print axioms OmegaH.C69_record
#print axioms OmegaH.C69_children
#print axioms OmegaH.C69_print
#print axioms OmegaH.C69_sorted
#print axioms OmegaH.C69_invert
#print axioms OmegaH.C69_reads
#print axioms OmegaH.C70_gather
#print axioms OmegaH.C70_collect_partial
#print axioms OmegaH.C70_collect_refuted
#print axioms OmegaH.C71_reading_unique
#print axioms OmegaH.C71_parse_partial
#print axioms OmegaH.C71_final_partial
#print axioms OmegaH.C71_parse_refuted
#print axioms OmegaH.C72_predicted
#print axioms OmegaH.C72_initial
#print axioms OmegaH.C72_made
#print axioms OmegaH.C72_nan_accepted
#print axioms OmegaH.C73_elements
#print axioms OmegaH.C73_made
#print axioms OmegaH.C73_pass
#print axioms OmegaH.C74_add
#print axioms OmegaH.C74_set
#print axioms OmegaH.C74_remove
#print axioms OmegaH.C74_read
#print axioms OmegaH.C74_positions_partial
#print axioms OmegaH.C74_last
#print axioms OmegaH.C74_fresh_partial
#print axioms OmegaH.C74_position_refuted
#print axioms OmegaH.C74_components_refuted
#print axioms OmegaH.C74_stale_refuted
#print axioms OmegaH.C74_empty_refuted
#print axioms OmegaH.C75_declines
#print axioms OmegaH.C75_adapted
#print axioms OmegaH.C75_keeps
#print axioms OmegaH.C75_ends
#print axioms OmegaH.C75_again_refuted
#print axioms OmegaH.C75_unmodified_refuted
#print axioms OmegaH.C76_product
#print axioms OmegaH.C76_compose
#print axioms OmegaH.C76_determinant
#print axioms OmegaH.C76_inverse
#print axioms OmegaH.C76_affine
#print axioms OmegaH.C76_pseudo_tall
#print axioms OmegaH.C76_pseudo_wide
#print axioms OmegaH.C76_packing
#print axioms OmegaH.C76_packing_order
#print axioms OmegaH.C76_cross
#print axioms OmegaH.C76_rotate
#print axioms OmegaH.C76_deviator
#print axioms OmegaH.C76_resize
#print axioms OmegaH.C76_basis
#print axioms OmegaH.C76_positivize_partial
#print axioms OmegaH.C76_unite
#print axioms OmegaH.C76_bounding_box
#print axioms OmegaH.C76_equilateral
#print axioms OmegaH.C76_into_unit
#print axioms OmegaH.C76_positivize_refuted
#print axioms OmegaH.C77_mapped
#print axioms OmegaH.C77_exchanged
#print axioms OmegaH.C77_parts
#print axioms OmegaH.C77_split
#print axioms OmegaH.C77_gradient
#print axioms OmegaH.C77_sides
#print axioms OmegaH.C77_barycentric
#print axioms OmegaH.C77_barycentric_flat
#print axioms OmegaH.C77_edges
#print axioms OmegaH.C77_implied
#print axioms OmegaH.C77_circumcenter
#print axioms OmegaH.C77_inside
#print axioms OmegaH.C78_range
#print axioms OmegaH.C78_finds
#print axioms OmegaH.C78_cut_partial
#print axioms OmegaH.C78_center
#print axioms OmegaH.C78_moment
#print axioms OmegaH.C78_axis
#print axioms OmegaH.C78_best_refuted
#print axioms OmegaH.C79_parts_partial
#print axioms OmegaH.C79_parent_refuted
#print axioms OmegaH.C79_extension
#print axioms OmegaH.C79_kind_partial
#print axioms OmegaH.C79_kind_refuted
#print axioms OmegaH.C79_remove_partial
#print axioms OmegaH.C79_remove_refuted
#print axioms OmegaH.C80_clamp
#print axioms OmegaH.C80_maxdet
#print axioms OmegaH.C80_intersect_partial
#print axioms OmegaH.C80_degenerate_partial
#print axioms OmegaH.C80_degenerate_refuted
#print axioms OmegaH.C81_result
#print axioms OmegaH.C81_rejects
#print axioms OmegaH.C81_unlimited
#print axioms OmegaH.C81_converges_partial
#print axioms OmegaH.C81_fixed
#print axioms OmegaH.C81_lengths_refuted
#print axioms OmegaH.C81_derivative_partial
#print axioms OmegaH.C81_derivative_refuted
#print axioms OmegaH.C82_corner
#print axioms OmegaH.C82_triangle_partial
#print axioms OmegaH.C82_plane_partial
#print axioms OmegaH.C82_least
#print axioms OmegaH.C82_triangle_refuted
#print axioms OmegaH.C82_plane_refuted
#print axioms OmegaH.C83_quality
#print axioms OmegaH.C83_alternate
#print axioms OmegaH.C84_harmonic
#print axioms OmegaH.C84_isolated
#print axioms OmegaH.C84_fixed
#print axioms OmegaH.C84_bounds
