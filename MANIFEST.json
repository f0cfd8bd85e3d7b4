{
 "claims": [
  {
   "property": "C01",
   "status": "proved",
   "theorems": [
    "OmegaH.C01_offset_scan_exact",
    "OmegaH.C01_threaded_scan_eq_serial",
    "OmegaH.C01_threaded_offset_scan_exact",
    "OmegaH.C01_too_many_threads_refuted",
    "OmegaH.C01_fill_right",
    "OmegaH.C01_threaded_fill_right"
   ],
   "note": "For up to 512 threads; above that the code overflows its table of partial totals (C01_too_many_threads_refuted)."
  },
  {
   "property": "C02",
   "status": "proved",
   "theorems": [
    "OmegaH.C02_sort_by_keys",
    "OmegaH.C02_stable_sort_unique",
    "OmegaH.C02_equal_keys_contiguous",
    "OmegaH.C02_rejects",
    "OmegaH.C02_sort_small_range"
   ],
   "note": "sort_by_keys for every width; the sort is std::stable_sort's contract, realised by an insertion sort. sort_small_range (counting by repeated minima) included."
  },
  {
   "property": "C03",
   "status": "proved",
   "theorems": [
    "OmegaH.C03_collect_marked",
    "OmegaH.C03_collect_marked_nonbinary_refuted",
    "OmegaH.C03_mark_image",
    "OmegaH.C03_mark_collect_round_trip",
    "OmegaH.C03_invert_injective_map",
    "OmegaH.C03_collect_invert",
    "OmegaH.C03_invert_marks",
    "OmegaH.C03_invert_marks_involution"
   ],
   "note": "Marks are 0/1 arrays. For other values collect_marked writes wrong places (C03_collect_marked_nonbinary_refuted)."
  },
  {
   "property": "C04",
   "status": "proved",
   "theorems": [
    "OmegaH.C04_invert_by_atomics",
    "OmegaH.C04_invert_funnel",
    "OmegaH.C04_invert_by_sorting",
    "OmegaH.C04_inverse_offsets_unique",
    "OmegaH.C04_ascending_inverse_unique",
    "OmegaH.C04_sorting_deterministic",
    "OmegaH.C04_atomics_order_varies",
    "OmegaH.C04_atomics_out_of_range"
   ],
   "note": "Both algorithms. Atomics: every order of the increments, of the fetch-adds and of the stores."
  },
  {
   "property": "C05",
   "status": "proved",
   "theorems": [
    "OmegaH.C05_unmap",
    "OmegaH.C05_unmap_out_of_range",
    "OmegaH.C05_map_into",
    "OmegaH.C05_map_into_schedule_independent",
    "OmegaH.C05_map_into_noninjective_refuted",
    "OmegaH.C05_map_onto",
    "OmegaH.C05_scatter_gather",
    "OmegaH.C05_permute",
    "OmegaH.C05_invert_permutation",
    "OmegaH.C05_permute_inverse",
    "OmegaH.C05_compound_maps",
    "OmegaH.C05_unmap_compound",
    "OmegaH.C05_expand",
    "OmegaH.C05_unmap_range",
    "OmegaH.C05_map_into_range",
    "OmegaH.C05_map_value_into"
   ],
   "note": "Scatter theorems need an injective map; for a non-injective map the result depends on the schedule (C05_map_into_noninjective_refuted)."
  },
  {
   "property": "C06",
   "status": "proved",
   "theorems": [
    "OmegaH.C06_get_degrees",
    "OmegaH.C06_degrees_of_offsets",
    "OmegaH.C06_offsets_of_degrees",
    "OmegaH.C06_invert_fan",
    "OmegaH.C06_fan_reduce",
    "OmegaH.C06_fan_sum",
    "OmegaH.C06_fan_max",
    "OmegaH.C06_fan_min",
    "OmegaH.C06_fan_sum_i8_overflow_refuted",
    "OmegaH.C06_multiply_fans",
    "OmegaH.C06_mark_fan_preimage"
   ],
   "note": "fan_reduce with SumFunctor<I8> wraps for fans of more than 127 marks (C06_fan_sum_i8_overflow_refuted)."
  },
  {
   "property": "C07",
   "status": "proved",
   "theorems": [
    "OmegaH.C07_partition_sizes",
    "OmegaH.C07_linear_owners",
    "OmegaH.C07_deal_bijection",
    "OmegaH.C07_linear_owner_onto",
    "OmegaH.C07_no_ranks",
    "OmegaH.C07_out_of_range_refuted",
    "OmegaH.C07_find_total_globals"
   ],
   "note": "Bijection proved for shares that fit 32 bits, as the code's casts require. Globals at or above the total divide by zero when there are fewer items than ranks (C07_out_of_range_refuted)."
  },
  {
   "property": "C08",
   "status": "proved",
   "theorems": [
    "OmegaH.C08_slices_agree_with_partition",
    "OmegaH.C08_slices_tile"
   ],
   "note": "Slices tile the range for every total and size; agreement with the linear partition for shares that fit 32 bits."
  },
  {
   "property": "C09",
   "status": "proved",
   "theorems": [
    "OmegaH.C09_unpack_pack",
    "OmegaH.C09_pack_unpack",
    "OmegaH.C09_pack_overflow_refuted",
    "OmegaH.C09_align_is_rotate_then_flip",
    "OmegaH.C09_index_agrees",
    "OmegaH.C09_edge_index_agrees",
    "OmegaH.C09_compound",
    "OmegaH.C09_compound_dispatch",
    "OmegaH.C09_compound_quads_refuted",
    "OmegaH.C09_inverse",
    "OmegaH.C09_inverse_bad_rotation_refuted",
    "OmegaH.C09_align_ev2v",
    "OmegaH.C09_which_down_ignored"
   ],
   "note": "Degrees 2, 3, 4. The run-time compound_alignments rejects quadrilaterals (C09_compound_quads_refuted); inverse codes need a rotation below the degree."
  },
  {
   "property": "C10",
   "status": "proved",
   "theorems": [
    "OmegaH.C10_down_templates_enumerate_faces",
    "OmegaH.C10_polygon_sides",
    "OmegaH.C10_up_templates",
    "OmegaH.C10_down_composition",
    "OmegaH.C10_coherent_orientation",
    "OmegaH.C10_sides_face_outwards",
    "OmegaH.C10_opposite_is_complement",
    "OmegaH.C10_euler_characteristic",
    "OmegaH.C10_degree_of_vertex_quirk"
   ],
   "note": "Finite tables, checked in full by the kernel; the tables are transcribed by script from the headers."
  },
  {
   "property": "C11",
   "status": "proved",
   "theorems": [
    "OmegaH.C11_invert_adj",
    "OmegaH.C11_invert_adj_deterministic",
    "OmegaH.C11_order_of_repeats_refuted",
    "OmegaH.C11_degree_limit_refuted"
   ],
   "note": "invert_adj refines the incidence relation for every schedule, with and without codes, degrees 1..16 (the library's largest is 12). The theorem's row order is by high entity; among repeated uses by one high entity the order depends on the schedule (C11_order_of_repeats_refuted shows it, such meshes are degenerate). C11_degree_limit_refuted: which_down overflows its 5 signed bits for degree 17."
  },
  {
   "property": "C12",
   "status": "proved",
   "theorems": [
    "OmegaH.C12_find_unique_deg",
    "OmegaH.C12_form_uses",
    "OmegaH.C12_find_unique",
    "OmegaH.C12_reflect_down",
    "OmegaH.C12_derive"
   ],
   "note": "find_unique, form_uses, find_matches and reflect_down for all families and the dimension pairs (2,1), (3,1), (3,2), every schedule. Non-degenerate elements: distinct vertices. C12_derive composes the two steps."
  },
  {
   "property": "C13",
   "status": "proved",
   "theorems": [
    "OmegaH.C13_add_exact_partial",
    "OmegaH.C13_add_refuted",
    "OmegaH.C13_sub_exact_partial",
    "OmegaH.C13_neg_exact_partial",
    "OmegaH.C13_neg_refuted",
    "OmegaH.C13_compare_exact",
    "OmegaH.C13_shift_exact",
    "OmegaH.C13_to_double",
    "OmegaH.C13_round_error",
    "OmegaH.C13_to_double_exact",
    "OmegaH.C13_max_exponent",
    "OmegaH.C13_int128_sum",
    "OmegaH.C13_repro_sum",
    "OmegaH.C13_exact_when_representable",
    "OmegaH.C13_accuracy",
    "OmegaH.C13_order_and_threads_irrelevant",
    "OmegaH.C13_partition_irrelevant",
    "OmegaH.C13_subnormal_refuted"
   ],
   "note": "Exact fixed-point sum for every thread team and rank distribution, up to 2^74 values; independence of order and partition; accuracy bound; to_double terminates; refutations at the extreme ends of Int128 and for arrays of tiny subnormals."
  },
  {
   "property": "C14",
   "status": "partial",
   "theorems": [
    "OmegaH.C14_encode_is_base64",
    "OmegaH.C14_encoded_length",
    "OmegaH.C14_decode_partial",
    "OmegaH.C14_roundtrip",
    "OmegaH.C14_read_encoded",
    "OmegaH.C14_alphabet",
    "OmegaH.C14_signed_char_refuted",
    "OmegaH.C14_trailing_refuted",
    "OmegaH.C14_padding_inside_refuted"
   ],
   "note": "Encoding is proved to be RFC 4648 base64 and the round trip exact; the clause that malformed text is rejected is refuted: characters above 127 index outside the table when char is signed, trailing foreign characters are ignored and '=' is accepted anywhere."
  },
  {
   "property": "C15",
   "status": "proved",
   "theorems": [
    "OmegaH.C15_axes_to_transpose_and_back",
    "OmegaH.C15_transpose_to_axes_and_back",
    "OmegaH.C15_untranspose",
    "OmegaH.C15_lex_is_value_order",
    "OmegaH.C15_key_bijection",
    "OmegaH.C15_no_ties",
    "OmegaH.C15_clamped"
   ],
   "note": "Transforms are mutually inverse for every dimension and 1..64 bits; keys are a bijection onto 0..2^(b*n)-1 for 1..63 bits (the library uses 52). Conversion of doubles to grid coordinates is not modelled."
  },
  {
   "property": "C16",
   "status": "proved",
   "theorems": [
    "OmegaH.C16_blocks_distinct_and_accounted",
    "OmegaH.C16_destroy_returns_all",
    "OmegaH.C16_reuse_same_class",
    "OmegaH.C16_failure_means_exhausted",
    "OmegaH.C16_deallocate",
    "OmegaH.C16_huge_request_refuted"
   ],
   "note": "All histories of pool requests below 2^63 bytes. C16_huge_request_refuted records the limit: a request above 2^63 bytes shifts by 64 or more in the size class search, which is undefined; no allocator can serve such a request."
  },
  {
   "property": "C17",
   "status": "partial",
   "theorems": [
    "OmegaH.C17_freed_exactly_with_last_handle_partial",
    "OmegaH.C17_no_leak_partial",
    "OmegaH.C17_parallel_copy_keeps_size",
    "OmegaH.C17_self_assignment_refuted",
    "OmegaH.C17_self_move_refuted",
    "OmegaH.C17_parallel_move_leak_refuted",
    "OmegaH.C17_identity_refuted"
   ],
   "note": "Proved for programs that neither assign a handle to itself, nor move a handle inside a parallel region; self-assignment and self-move assignment use freed storage, and a move in a parallel region leaks (refutations). identity through a parallel copy is refuted: the copy is not a counted handle."
  },
  {
   "property": "C18",
   "status": "partial",
   "theorems": [
    "OmegaH.C18_poll_refuted",
    "OmegaH.C18_poll_is_inverted",
    "OmegaH.C18_poll_done_stays",
    "OmegaH.C18_poll_loop_never_ends",
    "OmegaH.C18_get_partial",
    "OmegaH.C18_ready"
   ],
   "note": "The statement is refuted: the poll answer is exactly inverted. Proved: what get() delivers when no poll happens before completion, that a polling loop started after completion never ends, and that a second get() fails."
  },
  {
   "property": "C19",
   "status": "partial",
   "theorems": [
    "OmegaH.C19_bcast",
    "OmegaH.C19_bcast_string_exact",
    "OmegaH.C19_bcast_string_partial",
    "OmegaH.C19_bcast_string_refuted"
   ],
   "note": "Broadcast of values is proved for every root. The string clause is refuted for roots other than rank 0: the length is always rank 0's. Proved: the exact result for every root, and correctness when the root is rank 0 or the lengths agree (below 2^31)."
  },
  {
   "property": "C20",
   "status": "proved",
   "theorems": [
    "OmegaH.C20_exch_ranks",
    "OmegaH.C20_inverse_ranks",
    "OmegaH.C20_new",
    "OmegaH.C20_exch",
    "OmegaH.C20_inverse",
    "OmegaH.C20_reduce",
    "OmegaH.C20_reduce_determined",
    "OmegaH.C20_destinations",
    "OmegaH.C20_globals",
    "OmegaH.C20_variable",
    "OmegaH.C20_sources"
   ],
   "note": "All of Dist: constructor, set_dest_ranks, set_dest_idxs, set_dest_globals, invert, exch, exch_reduce, items2dests and create_dist_for_variable_sized, for any number of ranks below 2^31, any schedules, widths and data. Trusted: MPI delivers the messages between two ranks in order; the sources of a graph communicator are those of C45 (C20_sources). Width 0 aborts (checked by an example), so widths are positive. change_comm and iexch's callbacks are not modelled."
  },
  {
   "property": "C21",
   "status": "partial",
   "theorems": [
    "OmegaH.C21_update",
    "OmegaH.C21_update_suggested",
    "OmegaH.C21_from_globals",
    "OmegaH.C21_from_globals_suggested",
    "OmegaH.C21_globals",
    "OmegaH.C21_globals_dense",
    "OmegaH.C21_globals_unshared",
    "OmegaH.C21_reduce",
    "OmegaH.C21_suggestion_refuted"
   ],
   "note": "Proved for every number of ranks, distribution and schedule: without suggestions (C21_update, C21_from_globals) and with agreed, available suggestions (C21_update_suggested, C21_from_globals_suggested); numbering from owners (C21_globals, C21_globals_dense). The clause that an unavailable suggestion falls back to the rank with fewest copies is false: the code keeps the rank with index -1 (C21_suggestion_refuted). Assumes fewer than 2^31 ranks and items per rank."
  },
  {
   "property": "C22",
   "status": "proved",
   "theorems": [
    "OmegaH.C22_migrate",
    "OmegaH.C22_plan",
    "OmegaH.C22_global_connectivity"
   ],
   "note": "For a mesh of any dimension on any number of ranks and any plan that names for every new element the old element it copies, migrate_mesh succeeds under every schedule: each rank gets exactly the lower entities its elements use, each once and ordered by global number (UsedOnce), connections are the old ones (ConnOk, and through global numbers C22_global_connectivity), codes and tags are carried, owners are consistent or keep the old owners' ranks. Class sets, coordinates and parametric data are tags here; the values of tags are integers."
  },
  {
   "property": "C23",
   "status": "partial",
   "theorems": [
    "OmegaH.C23_ghost_partial",
    "OmegaH.C23_by_verts",
    "OmegaH.C23_by_elems",
    "OmegaH.C23_hypercubes_refuted",
    "OmegaH.C23_set_parting"
   ],
   "note": "Proved for one layer of any elements and any number of layers of simplices (C23_ghost_partial), for partitioning by vertices and by elements, and for the state machine of set_parting. Refuted for two or more new layers of hypercubes: close_down assumes dim+1 vertices per element and the size check in expand aborts (C23_hypercubes_refuted)."
  },
  {
   "property": "C24",
   "status": "proved",
   "theorems": [
    "OmegaH.C24_bi_partition",
    "OmegaH.C24_odd",
    "OmegaH.C24_preserves",
    "OmegaH.C24_order",
    "OmegaH.C24_bisect",
    "OmegaH.C24_not_power_of_two"
   ],
   "note": "bi_partition and recursively_bisect for all marks, numbers of ranks and schedules; the choice of the marks is any function. Sums over ranks are exact, and the total number of rows is below 2^31-1."
  },
  {
   "property": "C25",
   "status": "proved",
   "theorems": [
    "OmegaH.C25_find",
    "OmegaH.C25_independent",
    "OmegaH.C25_partition_independent",
    "OmegaH.C25_nan_never_ends",
    "OmegaH.C25_tie_never_ends"
   ],
   "note": "C25_find: on every number of ranks, for every distributed symmetric graph with agreeing copies, all schedules and qualities in any linear order, the loop ends within as many rounds as there are copies, all copies of an entity agree, and the result is the greedy choice from the top down; C25_independent: hence independent, maximal, candidates only; C25_partition_independent: two distributions of the same graph choose the same global numbers. Side results: C25_nan_never_ends and C25_tie_never_ends prove that the loop never ends on two adjacent candidates with NaN qualities, or with equal qualities and equal globals (both excluded by the statement). Doubles without NaN are a linear order once +0 and -0 are identified, as != does."
  },
  {
   "property": "C26",
   "status": "proved",
   "theorems": [
    "OmegaH.C26_set",
    "OmegaH.C26_range",
    "OmegaH.C26_range_end",
    "OmegaH.C26_unite",
    "OmegaH.C26_concat",
    "OmegaH.C26_plus",
    "OmegaH.C26_maybe",
    "OmegaH.C26_star",
    "OmegaH.C26_regex",
    "OmegaH.C26_readable",
    "OmegaH.C26_unreadable_range",
    "OmegaH.C26_maybe_transitions"
   ],
   "note": "Operations on automata (set, range, unite, concat, plus, maybe, star) accept exactly the languages they denote, for automata whose accepting states have no transitions, a class all operations keep (maybe is wrong outside it: C26_maybe_transitions); C26_regex composes them over parse trees of regular expressions. A positive set that spans characters that are not readable stops the program (C26_unreadable_range). Determinisation and simplification are C27."
  },
  {
   "property": "C27",
   "status": "proved",
   "theorems": [
    "OmegaH.C27_deterministic",
    "OmegaH.C27_simplify",
    "OmegaH.C27_regex",
    "OmegaH.C27_lexer"
   ],
   "note": "C27_deterministic (lowest token, termination bound 2^nstates) for all well-formed automata with at least one symbol, C27_simplify (tokens preserved, no more states, no two equal states left), composed into C27_regex (the automaton of an expression) and C27_lexer (first matching token of a language)."
  },
  {
   "property": "C28",
   "status": "partial",
   "theorems": [
    "OmegaH.C28_tokens",
    "OmegaH.C28_sound",
    "OmegaH.C28_unique",
    "OmegaH.C28_split_partial",
    "OmegaH.C28_split_refuted",
    "OmegaH.C28_empty_refuted"
   ],
   "note": "C28_tokens states exactly what the reader does: for every deterministic automaton and text it ends, and it passes on the longest-match tokens iff the text is not empty, has such a cut, and the automaton stops before the end of the text at every token but the last. C28_sound: the tokens it passes on are always the longest-match ones. The statement is false in two cases. C28_split_refuted: with tokens a, b, abc the text ab has a cut and the reader fails. C28_empty_refuted: the empty text always fails, and the first use of a reader reads an uninitialised member. C28_split_partial: the statement holds for nonempty texts if every nonempty text that the automaton can read has a token. Putting characters back into the stream (unget) is taken to work."
  },
  {
   "property": "C29",
   "status": "proved",
   "theorems": [
    "OmegaH.C29_first",
    "OmegaH.C29_string",
    "OmegaH.C29_order",
    "OmegaH.C29_productive"
   ],
   "note": "For grammars whose left-hand sides are nonterminals and whose symbols are in range; other grammars are rejected by the code's own checks, except that a production of a terminal that nothing depends on passes. A string derived from a symbol may still hold nonterminals; C29_productive states the same for strings of terminals in grammars without useless nonterminals. The order of the queue is arbitrary (the code takes the first event)."
  },
  {
   "property": "C30",
   "status": "proved",
   "theorems": [
    "OmegaH.C30_built",
    "OmegaH.C30_derivation",
    "OmegaH.C30_safe",
    "OmegaH.C30_language",
    "OmegaH.C30_unambiguous"
   ],
   "note": "The LR(0) machine is built for every grammar with an accepting production (C30_built). For tables built from it with arbitrary look-ahead sets: a text that is read has the reductions of a rightmost derivation from the goal, backwards, and the calls of the callbacks form a parse tree, each with one value per symbol (C30_derivation); no check fails and nothing is undefined (C30_safe). With look-ahead sets that miss nothing the texts read are exactly those derivable (C30_language), each with one derivation (C30_unambiguous). compute_context_set is not modelled: the sets are a parameter."
  },
  {
   "property": "C31",
   "status": "partial",
   "theorems": [
    "OmegaH.C31_consistent",
    "OmegaH.C31_layout",
    "OmegaH.C31_nesting",
    "OmegaH.C31_unindented_partial",
    "OmegaH.C31_grammar_partial",
    "OmegaH.C31_refuted",
    "OmegaH.C31_mixed_refuted",
    "OmegaH.C31_empty_refuted",
    "OmegaH.C31_sized_partial"
   ],
   "note": "Refuted as stated: the end of a text closes no block (C31_refuted: a grammar in which an unclosed INDENT is read successfully). Proved for every text: the delivered INDENT/DEDENT tokens are exactly the block structure of the lines (C31_layout), delivery succeeds exactly if tabs and spaces are not mixed (C31_consistent), the depth never becomes negative and ends as the number of open blocks (C31_nesting); every block is closed if the last line is not indented (C31_unindented_partial) or if every production of the language is balanced (C31_grammar_partial). Further defects: C31_mixed_refuted (a failed check instead of the exception), C31_empty_refuted (undefined behaviour on an empty reduction before any symbol)."
  },
  {
   "property": "C32",
   "status": "partial",
   "theorems": [
    "OmegaH.C32_values",
    "OmegaH.C32_endian",
    "OmegaH.C32_roundtrip_partial",
    "OmegaH.C32_truncated",
    "OmegaH.C32_other_rank",
    "OmegaH.C32_writes",
    "OmegaH.C32_refuted",
    "OmegaH.C32_array_refuted",
    "OmegaH.C32_comps_refuted",
    "OmegaH.C32_directory_partial"
   ],
   "note": "Refuted in clauses: an empty class set is dropped (C32_refuted), writing a tag that has no array is undefined (C32_array_refuted), and a tag that got more than 127 components by being replaced is written but refused when read (C32_comps_refuted). Otherwise proved for all meshes within the format's limits, with or without compression (zlib is a parameter that recovers what it compressed), writer and reader of either endianness: C32_values, C32_endian (same bytes), C32_writes, C32_roundtrip_partial, and for directories written by n ranks in any order C32_directory_partial (strict mode, as many ranks). C32_truncated: every proper prefix of a file is read with undefined behaviour, never refused. C32_other_rank: a part is refused by other ranks and by runs with another number of ranks."
  },
  {
   "property": "C33",
   "status": "proved",
   "theorems": [
    "OmegaH.C33_scan",
    "OmegaH.C33_no_tag",
    "OmegaH.C33_unended",
    "OmegaH.C33_bare_refuted"
   ],
   "note": "For every tag text (type, name without blank, '/' and '>', any attributes in either kind of quotes, blanks where allowed, any rest of the line) the scan returns type, name and, for every attribute name, the last value given; a self-closing tag has an attribute or a blank before its '/', as all tags of the VTK writer do. Lines not starting with '<' and lines without '>' are rejected. Side result C33_bare_refuted: <Foo/> is reported as a start tag, </Foo /> as self-closing."
  },
  {
   "property": "C34",
   "status": "proved",
   "theorems": [
    "OmegaH.C34_configs_are_triangulations",
    "OmegaH.C34_interior_edges",
    "OmegaH.C34_all_triangulations",
    "OmegaH.C34_counts",
    "OmegaH.C34_configs_distinct"
   ],
   "note": "All tables for loops of 3 to 7 vertices, checked against an independent definition of triangulation; all triangulations are listed exactly once."
  },
  {
   "property": "C35",
   "status": "partial",
   "theorems": [
    "OmegaH.C35_find_loop",
    "OmegaH.C35_any_input_partial",
    "OmegaH.C35_in_bounds",
    "OmegaH.C35_open_fan_refuted"
   ],
   "note": "Closed fans in any storage order and numbering give the loop in curl order; no out-of-bounds read. The clause that other inputs stop with an error is refuted: an open fan stored in chain order is accepted."
  },
  {
   "property": "C36",
   "status": "proved",
   "theorems": [
    "OmegaH.C36_split_domain",
    "OmegaH.C36_new_cells",
    "OmegaH.C36_new_triangles",
    "OmegaH.C36_new_edges"
   ],
   "note": "C36_split_domain: for a triangle or tet with the split edge at any local position and rotation, any distinct vertex labels, the two halves are the entity with one endpoint replaced by the new vertex, equally oriented, with the subdivided boundary, and every face of a half is the cut or a (subdivided) side. C36_new_cells/triangles/edges: the arrays refine_products builds for all keys list exactly these halves and cuts, key by key, on every schedule; edges give [a,m],[m,b]."
  },
  {
   "property": "C37",
   "status": "proved",
   "theorems": [
    "OmegaH.C37_unmap_adjacency",
    "OmegaH.C37_live_domains",
    "OmegaH.C37_products",
    "OmegaH.C37_product_nodup",
    "OmegaH.C37_dead_marks",
    "OmegaH.C37_verts_onto",
    "OmegaH.C37_collapse"
   ],
   "note": "C37_dead_marks: an entity of dimension 1..3 is marked dead iff it contains both ends of a collapsing edge, or is a side without the target of such an entity. C37_live_domains: the domains of a key are exactly its live adjacent entities in mesh order. C37_products/C37_collapse: the whole pipeline gives, key by key, each surviving entity with the target in the collapsing vertex's local position, in the new numbering, and no product has a repeated vertex; C37_verts_onto: the target is the other end of the rail. All on every schedule. Adjacency arrays the mesh is asked for are hypotheses (Spec.RailMesh)."
  },
  {
   "property": "C38",
   "status": "proved",
   "theorems": [
    "OmegaH.C38_swap_edge",
    "OmegaH.C38_swap_arrays"
   ],
   "note": "C38_swap_edge: for an edge in two consistently oriented triangles, any local numbering and list order, the new edge joins the opposite vertices and the new triangles have the old oriented boundary. C38_swap_arrays: layout over all keys on every schedule. If the two triangles lie on the same side (inconsistent orientation) the fill value -42 is stored as a vertex (example in C38.lean)."
  },
  {
   "property": "C39",
   "status": "proved",
   "theorems": [
    "OmegaH.C39_numbering",
    "OmegaH.C39_adapt",
    "OmegaH.C39_shared_representative"
   ],
   "note": "modify_ents up to the local numbers and modify_ents_adapt (mark_image, mark_up, collect_marked, collect_same, get_mods2reps, get_rep_counts with atomic additions in any order, get_rep2md_order, assign_new_numbering). C39_numbering: for any set of modified entities with products in several dimensions, under every schedule, the numbers of kept entities and products are a permutation of 0..nnew-1, kept entities keep their order, products of one modified entity are consecutive and lie between the kept entities around its representative, and old2new is right. C39_adapt: the same for one key dimension (edge splits, collapses, swaps), with the mesh conditions stated on adjacencies and with what stays characterised as what touches no key. Condition: no entity touches two keys (keys are an independent set); C39_shared_representative shows the numbers collide otherwise. Not modelled: modify_conn, modify_owners and modify_globals (distributed numbers)."
  },
  {
   "property": "C40",
   "status": "proved",
   "theorems": [
    "OmegaH.C40_box1",
    "OmegaH.C40_box2",
    "OmegaH.C40_box3",
    "OmegaH.C40_rounding",
    "OmegaH.C40_classify",
    "OmegaH.C40_classify_verts",
    "OmegaH.C40_entities_distinct",
    "OmegaH.C40_class_sets"
   ],
   "note": "make_1d/2d/3d_box connectivity and coordinates for all sizes and loop orders: ConformingGrid (every vertex used, cells, opposite orientation of shared sides, exactly the sides inside the box shared). classify_box_dim and average_field over an ordered field, with C40_rounding showing that errors up to 1/2000 of a cell cannot change the result. get_box_class_sets against the list of named parts. 32-bit overflow for huge boxes is not modelled. Splitting into simplices is not part of this property."
  },
  {
   "property": "C41",
   "status": "partial",
   "theorems": [
    "OmegaH.C41_codes",
    "OmegaH.C41_codes_limit",
    "OmegaH.C41_children_tile",
    "OmegaH.C41_children_inner",
    "OmegaH.C41_2to1_partial",
    "OmegaH.C41_2to1_zeroed",
    "OmegaH.C41_2to1_settled",
    "OmegaH.C41_2to1_refuted",
    "OmegaH.C41_topology"
   ],
   "note": "Refuted as stated: C41_2to1_refuted shows a valid three-level mesh on which enforce_2to1_refine misses a leaf that must be divided under the serial schedule, finds it under the reversed one, and marks unneeded leaves when the uninitialised array it reads contains nonzero bytes. C41_2to1_partial: what holds in every execution. C41_2to1_zeroed: with a zeroed array only required leaves are marked. C41_2to1_settled: the exact, schedule-independent result when one pass suffices. C41_codes, C41_children_tile, C41_children_inner and C41_topology prove the remaining clauses completely."
  },
  {
   "property": "C42",
   "status": "proved",
   "theorems": [
    "OmegaH.C42_unmap_mesh",
    "OmegaH.C42_closed",
    "OmegaH.C42_owners"
   ],
   "note": "C42_unmap_mesh (connectivity, codes, tags and new indices of every dimension, by induction over the dimensions), C42_closed (no index is lost when the kept lists are closed under taking sides), C42_owners (owners point at the new copies of the old owners, or -1). Every dimension must have its list of kept entities. The checks inside set_ents are not modelled."
  },
  {
   "property": "C43",
   "status": "proved",
   "theorems": [
    "OmegaH.C43_unary_elementwise",
    "OmegaH.C43_divide_each_by",
    "OmegaH.C43_binary_elementwise",
    "OmegaH.C43_size_mismatch_rejected",
    "OmegaH.C43_bitwise",
    "OmegaH.C43_multiply_each",
    "OmegaH.C43_divide_each",
    "OmegaH.C43_divide_each_maybe_zero",
    "OmegaH.C43_divide_empty_refuted",
    "OmegaH.C43_ternary_each",
    "OmegaH.C43_get_component",
    "OmegaH.C43_set_component",
    "OmegaH.C43_arrays_equal",
    "OmegaH.C43_get_sum",
    "OmegaH.C43_get_max",
    "OmegaH.C43_get_min",
    "OmegaH.C43_find_last",
    "OmegaH.C43_is_sorted",
    "OmegaH.C43_interleave",
    "OmegaH.C43_get_component_interleave",
    "OmegaH.C43_interleave_get_component"
   ],
   "note": "Every elementwise helper, reductions over every division into threads, interleave/get_component inverse both ways, find_last, is_sorted."
  },
  {
   "property": "C44",
   "status": "partial",
   "theorems": [
    "OmegaH.C44_totals_partial",
    "OmegaH.C44_listing_refuted",
    "OmegaH.C44_use_after_free_refuted",
    "OmegaH.C44_listing_is_first_and_last"
   ],
   "note": "Byte total and high-water mark are proved for every history in which the ledger's list is not corrupted. The listing clause is refuted (three allocations list two), and a history of two allocations, a free and an allocation writes to freed memory. C44_listing_is_first_and_last states what is listed instead."
  },
  {
   "property": "C45",
   "status": "proved",
   "theorems": [
    "OmegaH.C45_all_received",
    "OmegaH.C45_bounded",
    "OmegaH.C45_no_deadlock",
    "OmegaH.C45_terminates",
    "OmegaH.C45_result"
   ],
   "note": "Every schedule of the MPI calls. Trusted: MPI semantics of synchronous sends, probes and the non-blocking barrier, as stated in Model/Nbx.lean."
  },
  {
   "property": "C46",
   "status": "proved",
   "theorems": [
    "OmegaH.C46_value_semantics",
    "OmegaH.C46_cast",
    "OmegaH.C46_no_leak"
   ],
   "note": "All programs over any number of variables, small and large payload types. Payload constructors that throw are not modelled; swapping a payload with itself is assumed to leave it alone."
  },
  {
   "property": "C47",
   "status": "partial",
   "theorems": [
    "OmegaH.C47_coalesce_refuted",
    "OmegaH.C47_coalesce_partial"
   ],
   "note": "Refuted: for every nonempty list of arrays the offset loop reads past the end of the list (C47_coalesce_refuted). Only the empty case holds."
  },
  {
   "property": "C48",
   "status": "proved",
   "theorems": [
    "OmegaH.C48_same_surface",
    "OmegaH.C48_swap_one_key",
    "OmegaH.C48_product_arrays"
   ],
   "note": "Over all loop sizes the code supports; table check lifted to arbitrary vertex names. LO offsets are natural numbers (no overflow)."
  },
  {
   "property": "C49",
   "status": "proved",
   "theorems": [
    "OmegaH.C49_balance",
    "OmegaH.C49_plan_order_needed"
   ],
   "note": "balance on more than one rank after set_parting(ELEM_BASED); the geometric choice of marks is any function. C49_plan_order_needed shows that set_dest_globals on a pattern that already permutes its items sorts only if the items are numbered by ascending rank, which bisection ensures."
  },
  {
   "property": "C50",
   "status": "partial",
   "theorems": [
    "OmegaH.C50_children_partial",
    "OmegaH.C50_vertex_children_refuted",
    "OmegaH.C50_unmap_parents_partial",
    "OmegaH.C50_unmap_vertices",
    "OmegaH.C50_vertex_parents_refuted",
    "OmegaH.C50_leaves"
   ],
   "note": "C50_children_partial: ask_children is exact when every entity whose code names the dimension has a parent. C50_vertex_children_refuted: the children of vertices are undefined as soon as some entity has no parent (index -1, code 0 names dimension 0). C50_unmap_parents_partial: parents of edges and up are kept. C50_vertex_parents_refuted: unmap_mesh loses the parents of vertices, since its loop starts at dimension 1. C50_leaves: leaves are exact. The cache of children in Mesh is not modelled."
  },
  {
   "property": "C51",
   "status": "partial",
   "theorems": [
    "OmegaH.C51_roundtrip_partial",
    "OmegaH.C51_six_refuted",
    "OmegaH.C51_quote_refuted",
    "OmegaH.C51_special_refuted",
    "OmegaH.C51_line_refuted",
    "OmegaH.C51_unsorted_refuted",
    "OmegaH.C51_empty_refuted",
    "OmegaH.C51_reordered"
   ],
   "note": "C51_roundtrip_partial: for every mesh within the stated limits, every writer and reader byte order, char signedness, compression and schedule, writing succeeds and reading gives the same cells, coordinates, globals and tags. The unrestricted property is false of the code: 6-component real tags in 2D lose half their values (C51_six_refuted), quotes in names make the file unreadable (C51_quote_refuted), tags named local/owner vanish (C51_special_refuted), 1D hypercubes become simplices (C51_line_refuted), cell tags are attached to the wrong cells when vertices are not sorted by global number (C51_unsorted_refuted), a serial mesh without cells cannot be read (C51_empty_refuted). C51_reordered: the reordering of unsorted vertices itself keeps cells and tags consistent. Not modelled: entities between vertices and cells and the owners derived on reading (see C21), the pvtu index."
  },
  {
   "property": "C52",
   "status": "partial",
   "theorems": [
    "OmegaH.C52_session",
    "OmegaH.C52_history",
    "OmegaH.C52_data_partial",
    "OmegaH.C52_one_writer",
    "OmegaH.C52_numbers",
    "OmegaH.C52_restart_refuted",
    "OmegaH.C52_explicit_refuted",
    "OmegaH.C52_reopen_refuted"
   ],
   "note": "C52_history: after any history of sessions, with the last write of each cut short after any number of bytes, the list is readable and holds exactly the steps it should (proved outright, for any printing of times that can be read back). C52_data_partial: listed steps have the data of their times if no step that is still listed is written again; C52_numbers says which numbers writes get; C52_one_writer: a single writer that numbers its steps meets this. Refuted in general: a writer numbers from 0 after a restart, so a listed step gets the data of another time (C52_restart_refuted); a write without a number after one with a number overwrites that step (C52_explicit_refuted); a crash while the constructor rewrites the file loses every step (C52_reopen_refuted)."
  },
  {
   "property": "C53",
   "status": "partial",
   "theorems": [
    "OmegaH.C53_pointwise_partial",
    "OmegaH.C53_sound_partial",
    "OmegaH.C53_builtins",
    "OmegaH.C53_initial",
    "OmegaH.C53_register",
    "OmegaH.C53_component_refuted",
    "OmegaH.C53_choice_refuted",
    "OmegaH.C53_index_refuted",
    "OmegaH.C53_division_refuted",
    "OmegaH.C53_no_points_refuted",
    "OmegaH.C53_zero_matrix"
   ],
   "note": "Proved for every program over n>0 points in 1-3 dimensions, any mixture of constants and arrays and any schedule, in an arbitrary arithmetic with -x = x*(-1) and commutative products: C53_pointwise_partial (value computed, and right), C53_sound_partial (also for choices between vectors/matrices and computed indices: if a value is computed it is the right one), C53_builtins/C53_initial/C53_register give the environment. Missing because false of the code, each with a witness: m(i,j) off the diagonal (second index read from the first argument), constant condition with vector branches aborts, computed indices abort, array division by zero aborts, and a choice per point aborts on a rank without points."
  },
  {
   "property": "C54",
   "status": "proved",
   "theorems": [
    "OmegaH.C54_compiled",
    "OmegaH.C54_again",
    "OmegaH.C54_failures_differ"
   ],
   "note": "For all programs, environments (also with arbitrary user functions) and schedules. The two ways may fail differently (C54_failures_differ)."
  },
  {
   "property": "C55",
   "status": "partial",
   "theorems": [
    "OmegaH.C55_hexes_partial",
    "OmegaH.C55_hexes_refuted",
    "OmegaH.C55_quads",
    "OmegaH.C55_neighbours",
    "OmegaH.C55_hex_array",
    "OmegaH.C55_quad_array",
    "OmegaH.C55_box_hexes",
    "OmegaH.C55_symmetric_quads",
    "OmegaH.C55_symmetric_hexes",
    "OmegaH.C55_symmetric_neighbours",
    "OmegaH.C55_symmetric_coords2",
    "OmegaH.C55_symmetric_coords3"
   ],
   "note": "The full claim is false (C55_hexes_refuted): hex_bur_ring is not the ring of a rotation. C55_hexes_partial decides exactly which hexahedra are split properly (those that are Upright). Quadrilaterals, the symmetric variants, the array layout, agreement of neighbours and generated boxes are proved in full. Coordinates are exact in a field."
  },
  {
   "property": "C56",
   "status": "proved",
   "theorems": [
    "OmegaH.C56_offered",
    "OmegaH.C56_class",
    "OmegaH.C56_candidates",
    "OmegaH.C56_rails"
   ],
   "note": "C56_offered and C56_class treat the marks and the classification, C56_candidates the whole pass on all ranks up to the choice of an edge for every vertex, C56_rails the way back from global numbers to edges. Lengths and qualities are abstract functions of the vertices into a linear order. The optional check that collapses do not flip elements (off by default) and meshes of dimension one are not modelled."
  },
  {
   "property": "C57",
   "status": "partial",
   "theorems": [
    "OmegaH.C57_refine_partial",
    "OmegaH.C57_coarsen_partial",
    "OmegaH.C57_coarsen_verts",
    "OmegaH.C57_swap_partial",
    "OmegaH.C57_copy",
    "OmegaH.C57_pointwise_1d_refuted",
    "OmegaH.C57_face_flux_refuted"
   ],
   "note": "C57_refine_partial covers refinement on every dimension, C57_coarsen_partial and C57_coarsen_verts coarsening, C57_swap_partial and C57_copy swapping, for every schedule and every list of fields; fields that the conservation functions rewrite (named in 'changed') are excluded here. What is false of the code: on meshes of dimension 1 a pointwise field disappears on coarsening (C57_pointwise_1d_refuted), and a field named 'magnetic face flux' that is not a scalar of reals makes the transfer fail (C57_face_flux_refuted, so FluxOk is assumed). Missing: user-defined transfers; geometry is a parameter."
  },
  {
   "property": "C58",
   "status": "partial",
   "theorems": [
    "OmegaH.C58_step",
    "OmegaH.C58_momentum",
    "OmegaH.C58_momentum_total",
    "OmegaH.C58_density_partial",
    "OmegaH.C58_density_refuted"
   ],
   "note": "Proved: for every sound modification and any flags, schedules and number of components the errors can be computed and the integral minus the errors is unchanged in every set of materials, provided there is no error where the flags say that conservation always holds (C58_step); hence for momenta, whose flags never say so, through every history (C58_momentum, C58_momentum_total). For densities it holds as long as no error sits around keys inside the model (C58_density_partial) and is false otherwise: C58_density_refuted gives a collapse and two splits of a square of area 18 after which 5/9 is unaccounted for. Assumed: at most 127 elements per cavity, the cavities partition what is not kept, kept elements keep size, material and density, cavities of keys inside the model have one material, boundary cavities have the same materials before and after, and where an operation claims to conserve this time it does. Densities before and after are given, not computed by intersection; exact arithmetic; one rank; the keys2doms argument and the unused CLASS_BDRY_COLOR cavities are left out."
  },
  {
   "property": "C59",
   "status": "partial",
   "theorems": [
    "OmegaH.C59_density_partial",
    "OmegaH.C59_density_ends_partial",
    "OmegaH.C59_rounds_go_on",
    "OmegaH.C59_density_ends_refuted",
    "OmegaH.C59_momentum_partial",
    "OmegaH.C59_momentum_ends_partial",
    "OmegaH.C59_momentum_refuted"
   ],
   "note": "Proved for one rank and exact arithmetic: what correction returns conserves in every closed part and respects the tolerance (C59_density_partial), momentum is restored where every element has a free vertex and fixed components stay (C59_momentum_partial), and the rounds end when the errors of every connected body that reaches the boundary are together less than its tolerance (C59_density_ends_partial, C59_momentum_ends_partial, over an Archimedean field). Refuted in general: with larger errors no number of rounds suffices although each round succeeds (C59_density_ends_refuted, C59_rounds_go_on), and errors of momentum are lost where all vertices are fixed (C59_momentum_refuted)."
  },
  {
   "property": "C60",
   "status": "partial",
   "theorems": [
    "OmegaH.C60_choice",
    "OmegaH.C60_swap3d_partial",
    "OmegaH.C60_swap2d_partial",
    "OmegaH.C60_inverted_refuted",
    "OmegaH.C60_triangles_refuted"
   ],
   "note": "Refuted for edges around which an element is inverted: C60_inverted_refuted (tets: no allowed configuration, yet picked with configuration -1) and C60_triangles_refuted (triangles, quality below -1). Proved for all other edges: C60_swap3d_partial, C60_swap2d_partial, for every schedule and distribution; C60_choice is the choice for one edge. Quality and length are parameters; the independent set that follows is C25."
  },
  {
   "property": "C61",
   "status": "partial",
   "theorems": [
    "OmegaH.C61_derived_partial",
    "OmegaH.C61_determined",
    "OmegaH.C61_relaxed",
    "OmegaH.C61_order_refuted"
   ],
   "note": "Refuted: C61_order_refuted, the derived class depends on the numbering where known and unknown numbers meet. C61_derived_partial covers all meshes, distributions and schedules; its rule for an entity is conditional on the entities around not mixing known and unknown numbers, the bounds on dimensions and the agreement of copies are unconditional. C61_relaxed: the relaxed variant has no such condition; C61_determined: the rule gives one class in any order."
  },
  {
   "property": "C62",
   "status": "proved",
   "theorems": [
    "OmegaH.C62_down",
    "OmegaH.C62_up",
    "OmegaH.C62_up_all",
    "OmegaH.C62_closures",
    "OmegaH.C62_entities"
   ],
   "note": "C62_down, C62_up and C62_up_all for marks on any dimensions, C62_closures and C62_entities for lists of model entities. Hypotheses (Spec.MarkWorld.Ok): copies of an entity agree on class and lower entities, owners own themselves, and in ghosted meshes owners have all upward entities. Not covered: the variants with graphs from nodes of a field."
  },
  {
   "property": "C63",
   "status": "partial",
   "theorems": [
    "OmegaH.C63_neighbours",
    "OmegaH.C63_layers_partial",
    "OmegaH.C63_check_partial",
    "OmegaH.C63_swap_partial",
    "OmegaH.C63_layers_refuted",
    "OmegaH.C63_bad_refuted",
    "OmegaH.C63_lone_refuted",
    "OmegaH.C63_check_refuted"
   ],
   "note": "An element with neighbours is offered exactly if a walk of exactly the given number of steps leads to a bad one, one without neighbours always; what is nearer by an even number of layers is offered. Missing because false: elements nearer by an odd number of layers (C63_layers_refuted, C63_bad_refuted), elements without neighbours (C63_lone_refuted), and a normal end if no bad element has a neighbour (C63_check_refuted). The graph of neighbours and the candidates for swapping are described completely."
  },
  {
   "property": "C64",
   "status": "partial",
   "theorems": [
    "OmegaH.C64_compare_partial",
    "OmegaH.C64_distribution_partial",
    "OmegaH.C64_order_partial",
    "OmegaH.C64_types_refuted",
    "OmegaH.C64_components_refuted",
    "OmegaH.C64_tolerance_refuted"
   ],
   "note": "For tags that have the same type and number of components in both meshes and for tolerances that are not negative: the three answers, independence of the distribution and of schedules, symmetry. Refuted otherwise (abort, or a mesh differing from itself). Real numbers are exact; NaN is not modelled. The parser of exodiff command files is not modelled."
  },
  {
   "property": "C65",
   "status": "proved",
   "theorems": [
    "OmegaH.C65_globals",
    "OmegaH.C65_same_on_any_ranks",
    "OmegaH.C65_order",
    "OmegaH.C65_owners",
    "OmegaH.C65_cavity_owners",
    "OmegaH.C65_places",
    "OmegaH.C65_places_apart"
   ],
   "note": "The places of keys at their representatives are hypotheses of the numbering theorem and are shown to be right on a rank that sees all keys of the representative (C65_places); that they are then kept through the move to an element-based partition is not modelled. Numbers of products per entity are below 2^31. Owners of shared products of modified entities that are not owned by one rank's elements (get_prod_owners_shared) are not modelled."
  },
  {
   "property": "C66",
   "status": "partial",
   "theorems": [
    "OmegaH.C66_count",
    "OmegaH.C66_total",
    "OmegaH.C66_histogram_partial",
    "OmegaH.C66_histogram_sum_partial",
    "OmegaH.C66_goals_partial",
    "OmegaH.C66_status",
    "OmegaH.C66_average",
    "OmegaH.C66_count_refuted"
   ],
   "note": "All clauses are proved for meshes of fewer than 2^31 entities; the number of entities, the status and the average without that bound. C66_count_refuted shows that a count of 2^31 marked entities overflows. Real arithmetic is exact; the status assumes that the limits lie within the range of the type."
  },
  {
   "property": "C67",
   "status": "partial",
   "theorems": [
    "OmegaH.C67_no_field",
    "OmegaH.C67_outside",
    "OmegaH.C67_step_partial",
    "OmegaH.C67_stall_partial",
    "OmegaH.C67_nothing_lost_partial",
    "OmegaH.C67_empty",
    "OmegaH.C67_metric_partial",
    "OmegaH.C67_metric_stall_partial",
    "OmegaH.C67_stall_refuted",
    "OmegaH.C67_empty_refuted"
   ],
   "note": "Proved for meshes of which every rank has vertices, and for warps that do not stall or end the program when they do. C67_stall_refuted: after a stall that is tolerated the mesh is outside of the limits. C67_empty_refuted: with an empty rank the program ends. Quality, length and metric logarithm are parameters; arithmetic is exact; limits lie within the range of the type."
  },
  {
   "property": "C68",
   "status": "proved",
   "theorems": [
    "OmegaH.C68_resolve",
    "OmegaH.C68_derive"
   ],
   "note": "Global numbers of vertices are natural numbers, distinct on each rank; more than one rank and a rank count below 2^31, a share of the linear partition below 2^31. The elements' own owners (owners_from_globals) are C21."
  },
  {
   "property": "C69",
   "status": "proved",
   "theorems": [
    "OmegaH.C69_record",
    "OmegaH.C69_children",
    "OmegaH.C69_print",
    "OmegaH.C69_sorted",
    "OmegaH.C69_invert",
    "OmegaH.C69_reads"
   ],
   "note": "Times are exact. Names have no byte 0 (they are C strings). The inverted profile is right whatever the uninitialised members of the copied History hold."
  },
  {
   "property": "C70",
   "status": "partial",
   "theorems": [
    "OmegaH.C70_gather",
    "OmegaH.C70_collect_partial",
    "OmegaH.C70_collect_refuted"
   ],
   "note": "C70_gather holds on each rank. C70_collect_refuted: undefined behaviour if a rank has a region that rank 0 does not have. C70_collect_partial: the collection succeeds exactly if all names occur on rank 0, and then it is right."
  },
  {
   "property": "C71",
   "status": "partial",
   "theorems": [
    "OmegaH.C71_reading_unique",
    "OmegaH.C71_parse_partial",
    "OmegaH.C71_final_partial",
    "OmegaH.C71_parse_refuted"
   ],
   "note": "Refuted for lines that end with a value of a flag that is the name of a flag declared later (C71_parse_refuted); C71_parse_partial and C71_final_partial say exactly which lines are accepted, what is answered and what stays on the line; C71_reading_unique says that a line has one reading. The conversion of words to numbers (atoi, atof) is not modelled: it accepts any word."
  },
  {
   "property": "C72",
   "status": "proved",
   "theorems": [
    "OmegaH.C72_predicted",
    "OmegaH.C72_initial",
    "OmegaH.C72_made",
    "OmegaH.C72_nan_accepted"
   ],
   "note": "C72_predicted: the predicted quality of a candidate is the least of 1 and the qualities of the cells made, for every set of candidates split together and every numbering. C72_initial: exactly the marked edges that may be split are offered. C72_made: every cell made from offered edges has the allowed quality. Dimensions 2 and 3 (in 1D the code does not compute element qualities here); one rank; the quality of an element, the midpoint of points and the average of metrics are arbitrary functions; that the new mesh carries points and metrics this way is a hypothesis (see C57). Qualities are numbers: with NaN the prediction is 1 (C72_nan_accepted)."
  },
  {
   "property": "C73",
   "status": "proved",
   "theorems": [
    "OmegaH.C73_elements",
    "OmegaH.C73_made",
    "OmegaH.C73_pass"
   ],
   "note": "On one rank: C73_pass goes from the output of coarsen_ghosted to the connectivity made by coarsen_topology. C73_elements says that the prediction is the smallest quality of what is made. That the chosen vertices are apart is what the independent set gives (C25). Several ranks: each collapse is judged on the rank that owns the edge (C56); that copies of a ghosted mesh measure alike is not modelled. Coordinates and metrics of vertices that stay do not change, which is the hypothesis about the new measures."
  },
  {
   "property": "C74",
   "status": "partial",
   "theorems": [
    "OmegaH.C74_add",
    "OmegaH.C74_set",
    "OmegaH.C74_remove",
    "OmegaH.C74_read",
    "OmegaH.C74_positions_partial",
    "OmegaH.C74_last",
    "OmegaH.C74_fresh_partial",
    "OmegaH.C74_position_refuted",
    "OmegaH.C74_components_refuted",
    "OmegaH.C74_stale_refuted",
    "OmegaH.C74_empty_refuted"
   ],
   "note": "The store (C74_add, C74_set, C74_remove, C74_read, C74_last) is proved for all meshes and histories, with the exact conditions for success and for undefined behaviour. C74_positions_partial and C74_fresh_partial leave out what C74_position_refuted and C74_stale_refuted show to be false: the position one past the last, and derived data after the coordinates or metric were removed or written as internal. C74_components_refuted and C74_empty_refuted are further expectations that fail. Measuring is an arbitrary function of the arrays; the mesh's entities are fixed over a history."
  },
  {
   "property": "C75",
   "status": "partial",
   "theorems": [
    "OmegaH.C75_declines",
    "OmegaH.C75_adapted",
    "OmegaH.C75_keeps",
    "OmegaH.C75_ends",
    "OmegaH.C75_again_refuted",
    "OmegaH.C75_unmodified_refuted"
   ],
   "note": "Proved: when it declines and fails (C75_declines), what holds when it ends (C75_adapted), what is kept (C75_keeps), and a condition for ending (C75_ends). The last sentence is refuted (C75_again_refuted), as is the comment that false is returned if nothing was modified (C75_unmodified_refuted). The passes are parameters that leave the mesh alone when they say they did nothing; that a real pass then only changes the distribution and stored derived data is not modelled here."
  },
  {
   "property": "C76",
   "status": "partial",
   "theorems": [
    "OmegaH.C76_product",
    "OmegaH.C76_compose",
    "OmegaH.C76_determinant",
    "OmegaH.C76_inverse",
    "OmegaH.C76_affine",
    "OmegaH.C76_pseudo_tall",
    "OmegaH.C76_pseudo_wide",
    "OmegaH.C76_packing",
    "OmegaH.C76_packing_order",
    "OmegaH.C76_cross",
    "OmegaH.C76_rotate",
    "OmegaH.C76_deviator",
    "OmegaH.C76_resize",
    "OmegaH.C76_basis",
    "OmegaH.C76_positivize_partial",
    "OmegaH.C76_unite",
    "OmegaH.C76_bounding_box",
    "OmegaH.C76_equilateral",
    "OmegaH.C76_into_unit",
    "OmegaH.C76_positivize_refuted"
   ],
   "note": "The choice between a vector and its negative is refuted for vectors that end in zero; everything else is proved for all inputs, in exact arithmetic, with division by zero excluded."
  },
  {
   "property": "C77",
   "status": "proved",
   "theorems": [
    "OmegaH.C77_mapped",
    "OmegaH.C77_exchanged",
    "OmegaH.C77_parts",
    "OmegaH.C77_split",
    "OmegaH.C77_gradient",
    "OmegaH.C77_sides",
    "OmegaH.C77_barycentric",
    "OmegaH.C77_barycentric_flat",
    "OmegaH.C77_edges",
    "OmegaH.C77_implied",
    "OmegaH.C77_circumcenter",
    "OmegaH.C77_inside"
   ],
   "note": "All clauses in exact arithmetic. Triangles in the plane and tetrahedra; flat triangles and edges in spaces of any dimension for the coordinates. The implied metric of a tetrahedron needs the six by six solver, which is not modelled."
  },
  {
   "property": "C78",
   "status": "partial",
   "theorems": [
    "OmegaH.C78_range",
    "OmegaH.C78_finds",
    "OmegaH.C78_cut_partial",
    "OmegaH.C78_center",
    "OmegaH.C78_moment",
    "OmegaH.C78_axis",
    "OmegaH.C78_best_refuted"
   ],
   "note": "All clauses but the last, which is refuted: when no cut is good enough the last one is given, not the best. The eigen-decomposition is a parameter of C78_axis."
  },
  {
   "property": "C79",
   "status": "partial",
   "theorems": [
    "OmegaH.C79_parts_partial",
    "OmegaH.C79_parent_refuted",
    "OmegaH.C79_extension",
    "OmegaH.C79_kind_partial",
    "OmegaH.C79_kind_refuted",
    "OmegaH.C79_remove_partial",
    "OmegaH.C79_remove_refuted"
   ],
   "note": "Refuted: the parent of a path without a separator, the kinds of devices, links and sockets, and that nothing outside is removed. Proved for all other paths, for regular files, directories and pipes, and for trees without links to directories."
  },
  {
   "property": "C80",
   "status": "partial",
   "theorems": [
    "OmegaH.C80_clamp",
    "OmegaH.C80_maxdet",
    "OmegaH.C80_intersect_partial",
    "OmegaH.C80_degenerate_partial",
    "OmegaH.C80_degenerate_refuted"
   ],
   "note": "Clamping, the choice by determinant and the intersection with a first metric that is nowhere degenerate are proved in three dimensions in exact arithmetic, given the eigendecompositions. In the plane the intersection of two degenerate metrics is proved to be their sum if the directions are at less than a right angle and not equal, and refuted otherwise. The degenerate case in three dimensions is not modelled."
  },
  {
   "property": "C81",
   "status": "partial",
   "theorems": [
    "OmegaH.C81_result",
    "OmegaH.C81_rejects",
    "OmegaH.C81_unlimited",
    "OmegaH.C81_converges_partial",
    "OmegaH.C81_fixed",
    "OmegaH.C81_lengths_refuted",
    "OmegaH.C81_derivative_partial",
    "OmegaH.C81_derivative_refuted"
   ],
   "note": "The bounds on the result, its relation to the sources, the refusals and the unlimited case are proved for all operations on metrics; convergence only if scaling has the effect expected of it. That unused lengths have no influence is refuted, and so is the use of data on elements. How a source's metrics are computed is not modelled."
  },
  {
   "property": "C82",
   "status": "partial",
   "theorems": [
    "OmegaH.C82_corner",
    "OmegaH.C82_triangle_partial",
    "OmegaH.C82_plane_partial",
    "OmegaH.C82_least",
    "OmegaH.C82_triangle_refuted",
    "OmegaH.C82_plane_refuted"
   ],
   "note": "One corner of a triangle is proved completely in any number of dimensions, and that the triangle's result comes from such a corner; that it is the least of several is refuted. For a corner of a tetrahedron the distance to the plane is proved, and the choice of corners only for a corner at the origin; elsewhere it is refuted. That the least of the corners of a tetrahedron is taken is proved. Two opposite edges close to each other are not modelled."
  },
  {
   "property": "C83",
   "status": "proved",
   "theorems": [
    "OmegaH.C83_quality",
    "OmegaH.C83_alternate"
   ],
   "note": "Triangles in the plane, in exact arithmetic, with the size of the equilateral triangle exact; tetrahedra are not modelled."
  },
  {
   "property": "C84",
   "status": "proved",
   "theorems": [
    "OmegaH.C84_harmonic",
    "OmegaH.C84_isolated",
    "OmegaH.C84_fixed",
    "OmegaH.C84_bounds"
   ],
   "note": "One process, one component, exact arithmetic. That the averaging ends on a connected mesh is not claimed."
  }
 ]
}