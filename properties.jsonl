{"id": "C01", "title": "Offset scans are exact prefix sums for every thread count", "statement": "offset_scan(a) returns an array of length n+1 that starts at 0 and whose consecutive differences are exactly the entries of a; the threaded implementation (chunk per thread, partial totals, second pass) returns the same array as the serial one for every number of threads up to the 512 it has room for; fill_right replaces every entry by the maximum of the entries up to it.", "quantifier": "all input arrays of all lengths, all thread counts", "why_tests_cant": "The chunk boundaries depend on (length mod threads, thread id); a test fixes a handful of lengths and one machine's thread count.", "anchors": ["src/Omega_h_scan.hpp: transform_inclusive_scan", "src/Omega_h_int_scan.cpp: offset_scan, fill_right"]}
{"id": "C02", "title": "sort_by_keys returns the stable lexicographic ordering permutation", "statement": "sort_by_keys(keys, width) returns a permutation of 0..n-1; visiting the keys in that order is non-decreasing lexicographically; equal keys keep their original relative order; hence the result is uniquely determined by the keys. Visiting the tuples in that order and numbering runs of equal keys gives equal numbers exactly to equal keys.", "quantifier": "all key arrays of all lengths and widths 1,2,3 (and any width of the model)", "why_tests_cant": "Stability and permutation-ness quantify over every multiset of keys; tests check a few literal arrays.", "anchors": ["src/Omega_h_sort.cpp: sort_by_keys, CompareKeySets, number_same_values", "src/Omega_h_sort.hpp"]}
{"id": "C03", "title": "Mark/collect/inject primitives are mutually inverse", "statement": "collect_marked(marks) lists exactly the marked indices once each in ascending order; mark_image(collect_marked(m), n) gives m back; invert_injective_map(collect_marked(m), n) maps each marked index to its position and every other index to -1; invert_marks is an involution that complements the marked set.", "quantifier": "all mark arrays of all lengths and all injective index maps", "why_tests_cant": "Off-by-one defects in scan-based compaction appear only for particular mark patterns; the laws quantify over all of them.", "anchors": ["src/Omega_h_map.cpp: collect_marked, mark_image, invert_marks, invert_injective_map, inject_map"]}
{"id": "C04", "title": "Inverting a many-to-one map yields exactly the preimages under every schedule", "statement": "invert_map_by_atomics(a2b, nb) and invert_map_by_sorting(a2b, nb) both return a graph whose fan of b lists each a with a2b[a]=b exactly once and nothing else, whose offsets start at 0, are monotone and end at the number of a's; for the atomic version this holds for every interleaving of the parallel iterations, and for the sorting version fans are ascending and the result is deterministic.", "quantifier": "all maps a2b with in-range targets, all nb, all orders in which the parallel iterations perform their atomic increments", "why_tests_cant": "The atomic version is schedule dependent: a test sees one interleaving out of n!.", "anchors": ["src/Omega_h_map.cpp: invert_map_by_atomics, invert_map_by_sorting, invert_funnel"]}
{"id": "C05", "title": "Gather/scatter through index maps obeys the copy laws for every width and schedule", "statement": "unmap gathers rows (out row i = in row map[i]); map_into scatters rows and leaves untouched rows unchanged; for an injective map scatter-then-gather is the identity and the scatter result does not depend on the order in which iterations run; permute by a permutation followed by its inverse is the identity; compound_maps composes; expand repeats each row once per fan member.", "quantifier": "all arrays, widths, index maps and iteration orders", "why_tests_cant": "Order independence ranges over all permutations of the iteration space and all injective maps.", "anchors": ["src/Omega_h_map.cpp: unmap, map_into, map_onto, permute, compound_maps, expand, expand_into, unmap_range, map_into_range, invert_permutation"]}
{"id": "C06", "title": "Fan operations (degrees, inversion, segmented reduction) are exact", "statement": "get_degrees inverts offset_scan; invert_fan maps each member to the fan that contains it; fan_reduce over a fan returns for each fan the reduction of exactly its members' rows, component by component, whenever that result fits the element type; multiply_fans returns the fan whose degrees are the products.", "quantifier": "all offset arrays, widths and value arrays", "why_tests_cant": "Segment boundaries, empty fans and trailing empty fans are combinatorial corner cases that must hold for every offsets array.", "anchors": ["src/Omega_h_map.cpp: get_degrees, invert_fan, fan_reduce, multiply_fans"]}
{"id": "C07", "title": "Linear partitioning of global numbers is a bijection onto (rank, index) pairs", "statement": "For every total and every communicator size, globals_to_linear_owners sends each global in [0,total) to a rank below comm size and an index below linear_partition_size of that rank, distinct globals go to distinct pairs, every pair is hit, ranks are non-decreasing in the global, and the partition sizes over ranks sum to total and differ by at most one.", "quantifier": "all totals, communicator sizes and globals", "why_tests_cant": "Depends on total mod size; tests use few process counts.", "anchors": ["src/Omega_h_linpart.cpp: globals_to_linear_owners, linear_partition_size"]}
{"id": "C08", "title": "suggest_slices tiles the global range exactly", "statement": "The slices suggested for ranks 0..size-1 are contiguous: the first begins at 0, each begins where its predecessor ends, the last ends at total, and slice lengths differ by at most one; the slices agree with the linear partition used by the rest of the library.", "quantifier": "all totals and communicator sizes", "why_tests_cant": "Same arithmetic corner cases (remainder ranks) for every total/size pair.", "anchors": ["src/Omega_h_build.cpp: suggest_slices", "src/Omega_h_linpart.cpp"]}
{"id": "C09", "title": "Alignment codes act as the dihedral group", "statement": "For polygons of degree 2, 3 and 4: packing and unpacking an alignment code is lossless; applying the compound of two codes equals applying one then the other (degrees 2 and 3, the ones the library composes codes for); applying a code and then its inverse restores the vertex order; rotating and flipping index functions are inverse to the array operations they describe; code_which_down is unaffected by alignment.", "quantifier": "all codes of all supported degrees and all vertex arrays", "why_tests_cant": "The laws range over all pairs of codes and arbitrary vertex data; an untested pair silently mis-orients faces.", "anchors": ["src/Omega_h_align.hpp", "src/Omega_h_align.cpp: align_ev2v, compound_alignments, invert_alignment"]}
{"id": "C10", "title": "Simplex and hypercube downward/upward template tables are mutually consistent", "statement": "Taking a low entity of a low entity by composing templates gives the vertices listed by the direct template up to the alignment recorded; the upward template entry (up, which_down, is_flipped) of every low entity names a high entity that really contains it at that position with that orientation and lists every containing entity exactly once; opposite templates name the complementary entity; entity counts match the degree tables and the Euler characteristic of the cell is 1.", "quantifier": "every entry of every table (dimensions 0..3, both families)", "why_tests_cant": "A single wrong table entry corrupts only particular local numberings and mesh tests rarely reach all of them.", "anchors": ["src/Omega_h_simplex.hpp", "src/Omega_h_hypercube.hpp", "src/Omega_h_template_up.hpp", "src/Omega_h_element.hpp"]}
{"id": "C11", "title": "Adjacency inversion keeps exactly the incidences, with correct local positions", "statement": "invert_adj(down, nlows_per_high, nlows) lists, for every low entity, each (high, local position) that uses it exactly once and no other, in ascending order of the high entity; the stored code's which_down is the local position at which the high entity uses the low one and its flip/rotation are those of the downward code.", "quantifier": "all downward adjacencies with in-range entities and any degree", "why_tests_cant": "Quantifies over all meshes.", "anchors": ["src/Omega_h_adj.cpp: invert_adj"]}
{"id": "C12", "title": "Deriving intermediate entities finds every distinct side once and aligns it correctly", "statement": "find_unique over elements returns each distinct (up to rotation/flip) side vertex set exactly once; reflect_down then gives, for every element and side, the derived entity with the same vertices together with a code which, when applied to the derived entity's vertices, reproduces the element's own side vertices in order.", "quantifier": "all element-to-vertex arrays of non-degenerate sides", "why_tests_cant": "Quantifies over all connectivity arrays and all relative orientations.", "anchors": ["src/Omega_h_adj.cpp: find_unique, reflect_down, find_matches_ex, form_uses", "src/Omega_h_align.cpp: get_codes_to_canonical"]}
{"id": "C13", "title": "The reproducible sum is independent of summation order and partition", "statement": "repro_sum computes the sum in fixed-point 128-bit integers: for any fixed exponent, the result is the same for every order of summands, every grouping into thread partial sums and every distribution over ranks; no 128-bit overflow can occur for fewer than 2^31 values per sum; Int128 addition, subtraction and negation agree with integer arithmetic for magnitudes up to 2^126 and comparison always does.", "quantifier": "all multisets of 64-bit scaled values, all orders, groupings and rank distributions", "why_tests_cant": "Order and partition independence ranges over all permutations/partitions of the data.", "anchors": ["src/Omega_h_int128.hpp", "src/Omega_h_int128.cpp", "src/Omega_h_array_ops.cpp: repro_sum, int128_sum", "src/Omega_h_comm.cpp: add_int128"]}
{"id": "C14", "title": "Base64 encoding round-trips every byte string; decoding never misreads foreign characters", "statement": "decode(encode(bytes), size) returns exactly bytes for every byte string; encoded length is 4*ceil(n/3) over the 64-character alphabet with '=' padding; decoding text containing any character outside the alphabet fails instead of returning data.", "quantifier": "all byte strings; all texts", "why_tests_cant": "Quantifies over all lengths and contents including bytes >= 128.", "anchors": ["src/Omega_h_base64.cpp"]}
{"id": "C15", "title": "The Hilbert spatial ordering visits every cell exactly once, and is invertible", "statement": "The coordinate-to-Hilbert-index transform is a bijection on the b-bit grid in any dimension and its inverse transform undoes it, for every number of bits; distinct grid cells get distinct keys, so that sorting by key orders all cells without ties.", "quantifier": "all bit depths, dimensions and grid coordinates", "why_tests_cant": "2^(b*dim) cells cannot be enumerated.", "anchors": ["src/Omega_h_hilbert.cpp: TransposetoAxes, AxestoTranspose, hilbert::from_spatial, hilbert::to_spatial"]}
{"id": "C16", "title": "The memory pool never hands out the same block twice and accounts for all bytes", "statement": "After any sequence of allocate/deallocate calls the live blocks are pairwise distinct, each block is at least as large as requested, freed blocks are reused only for requests of the same size class, every block obtained from the system is either live or in exactly one free list, and destroying the pool returns each block to the system exactly once.", "quantifier": "all sequences of pool operations and all request sizes", "why_tests_cant": "Histories are unbounded.", "anchors": ["src/Omega_h_pool.cpp: Pool::allocate, Pool::deallocate, Pool::~Pool", "src/Omega_h_pool.hpp"]}
{"id": "C17", "title": "Array handles free their storage exactly when the last handle goes away", "statement": "For any sequence of constructing, copying, moving, assigning and destroying array handles (outside and inside a parallel region), storage is freed exactly once, exactly when its last counted handle disappears, never while a counted handle refers to it.", "quantifier": "all sequences of handle operations", "why_tests_cant": "Unbounded histories, aliasing patterns such as self-assignment.", "anchors": ["src/Omega_h_shared_alloc.hpp: SharedAlloc", "src/Omega_h_shared_alloc.cpp: Alloc"]}
{"id": "C18", "title": "Polling a future reports completion only when the communication is complete", "statement": "Future::completed() returns true only if the underlying request has completed, and polling repeatedly until true is followed by get() never reads a receive buffer that is still being filled.", "quantifier": "all request histories and poll sequences", "why_tests_cant": "Depends on message timing.", "anchors": ["src/Omega_h_future.cpp: Future::completed", "src/Omega_h_future.hpp"]}
{"id": "C19", "title": "Broadcast delivers the root's value to every rank for every root", "statement": "After comm.bcast(x, root) every rank holds the root's value; after comm.bcast_string(s, root) every rank holds the root's string.", "quantifier": "all communicator sizes, roots and per-rank initial values", "why_tests_cant": "Tests use the default root only.", "anchors": ["src/Omega_h_comm.cpp: Comm::bcast, Comm::bcast_string", "src/Omega_h_comm.hpp"]}
{"id": "C20", "title": "Communication patterns deliver each item to its destination, and inversion reverses them", "statement": "For a Dist built from destinations (rank, index), exch(data) gives every destination rank exactly the data addressed to it, grouped by destination index; the inverted pattern sends back along the same pairs, so that exch followed by the inverse exch of per-item data is the identity; exch_reduce gives each destination root the reduction over exactly the items addressed to it.", "quantifier": "all numbers of ranks, item counts and destination assignments", "why_tests_cant": "Quantifies over all partitions and process counts.", "anchors": ["src/Omega_h_dist.cpp: Dist::set_dest_ranks, set_dest_idxs, exch, exch_reduce, invert", "src/Omega_h_comm.cpp: alltoall, alltoallv"]}
{"id": "C21", "title": "Ownership is a consistent choice: one owner copy per global entity", "statement": "owners_from_globals and update_ownership assign to every copy an owner (rank, index) that is itself a copy of the same entity, all copies of an entity agree on the owner, the owner of an owner is itself; with suggested ranks the suggestion wins when it is a rank holding a copy; otherwise the rank with fewest copies (ties: lowest rank) wins. globals_from_owners gives copies equal globals iff they share an owner.", "quantifier": "all distributions of copies over all numbers of ranks", "why_tests_cant": "Quantifies over all partitions.", "anchors": ["src/Omega_h_owners.cpp: update_ownership, owners_from_globals, globals_from_owners", "src/Omega_h_globals.cpp"]}
{"id": "C22", "title": "Migration keeps exactly one copy of each needed entity per rank and preserves connectivity", "statement": "After migrate_mesh to a given element distribution each rank has exactly one copy of each lower entity used by its elements and none other, element-to-entity connectivity through global numbers is unchanged, and tags are carried with their entity.", "quantifier": "all meshes, partitions and migration plans", "why_tests_cant": "Quantifies over all partitions and plans.", "anchors": ["src/Omega_h_migrate.cpp: get_old_owners2uniq_uses, get_new_copies2old_owners, form_new_conn, push_down"]}
{"id": "C23", "title": "Ghosting with k layers gives exactly the elements within k vertex-adjacency layers", "statement": "ghost_mesh with n layers leaves each rank with exactly the elements that can be reached from its own elements by at most n vertex-sharing hops; partition_by_verts gives each rank exactly the elements touching an owned vertex.", "quantifier": "all element-vertex incidences, owner assignments and layer counts", "why_tests_cant": "Quantifies over all meshes and partitions.", "anchors": ["src/Omega_h_ghost.cpp: close_up, close_down, push_elem_uses, partition_by_verts"]}
{"id": "C24", "title": "Recursive bisection assigns every element to exactly one rank with the requested split", "statement": "bi_partition sends each marked and unmarked object to exactly one rank: the unmarked ones to the lower half of the ranks, the marked ones to the upper half, in the order they had, with sizes over the ranks of each half differing by at most one and the total preserved; on a number of ranks that is a power of two the recursion terminates with each rank holding its own part, whatever the marks, and on any other number it stops with an error.", "quantifier": "all mark arrays and communicator sizes", "why_tests_cant": "Quantifies over all mark patterns and process counts.", "anchors": ["src/Omega_h_bipart.cpp: bi_partition", "src/Omega_h_inertia.cpp: recursively_bisect"]}
{"id": "C25", "title": "The independent set is independent, maximal, and always found", "statement": "find_indset returns a set of candidates in which no two are adjacent, to which no further candidate can be added, in a finite number of rounds, provided no quality is NaN and (quality, global) pairs are distinct on neighbours; the result depends only on qualities, globals and the graph and not on the partitioning into ranks or loop schedule.", "quantifier": "all finite graphs, candidate sets and qualities", "why_tests_cant": "Quantifies over all graphs and all tie patterns; non-termination is not observable by a test.", "anchors": ["src/Omega_h_indset.cpp", "src/Omega_h_indset_inline.hpp"]}
{"id": "C26", "title": "Compiled regular expressions accept exactly the language they denote", "statement": "The automaton operations (single symbol, set, range, unite, concat, plus, maybe, star) build an automaton accepting exactly the union, concatenation, iteration etc. of the operand languages, for automata produced by these operations.", "quantifier": "all regular expressions and all input strings", "why_tests_cant": "Infinite sets of expressions and strings.", "anchors": ["src/Omega_h_finite_automaton.cpp: make_single_nfa, unite, concat, plus, maybe, star", "src/Omega_h_regex.cpp"]}
{"id": "C27", "title": "Determinisation and simplification preserve recognised tokens", "statement": "make_deterministic yields a deterministic automaton that, for each string, accepts iff the original accepts and reports the lowest-numbered token any accepting run reports; simplify never changes the token reported for any string and never increases the number of states.", "quantifier": "all automata and all strings", "why_tests_cant": "Infinite sets of automata and strings.", "anchors": ["src/Omega_h_finite_automaton.cpp: make_deterministic, get_epsilon_closure, simplify_once, simplify"]}
{"id": "C28", "title": "The reader tokenizes by longest match", "statement": "The reader splits its input into the sequence of longest-match tokens and fails only if no split by that rule exists.", "quantifier": "all deterministic token automata and all inputs", "why_tests_cant": "Backtracking behaviour and end of input depend on the token set.", "anchors": ["src/Omega_h_reader.cpp: read_stream, backtrack_to_last_accept"]}
{"id": "C29", "title": "FIRST sets used by the parser generator are exactly the derivable first terminals", "statement": "compute_first_sets gives, for each symbol, exactly the terminals that can begin a string derivable from it, and marks it nullable iff it derives the empty string, irrespective of the worklist order.", "quantifier": "all grammars, all worklist orders", "why_tests_cant": "Grammars are unbounded and the worklist order is an implementation artifact.", "anchors": ["src/Omega_h_build_parser.cpp: compute_first_sets, get_first_set_of_string"]}
{"id": "C30", "title": "A successful parse is a derivation of the grammar", "statement": "If the table-driven parser built from a grammar accepts a token sequence, the sequence of reductions it performed is a rightmost derivation (in reverse) of that token sequence from the goal symbol, whatever look-ahead sets were computed; every reduction callback receives exactly as many values as the production has symbols.", "quantifier": "all grammars, tables built from them, and token sequences", "why_tests_cant": "Infinite.", "anchors": ["src/Omega_h_parser.cpp: execute_action", "src/Omega_h_reader.cpp: at_token", "src/Omega_h_build_parser.cpp: build_lr0_parser, accept_parser"]}
{"id": "C31", "title": "Indentation tokens are balanced", "statement": "For an indentation-sensitive language, every INDENT token delivered to the parser is matched by a later DEDENT and the nesting depth never becomes negative, for every input that is read successfully.", "quantifier": "all inputs", "why_tests_cant": "Unbounded nesting histories.", "anchors": ["src/Omega_h_reader.cpp: at_token_indent"]}
{"id": "C32", "title": "Mesh files round-trip", "statement": "Reading a mesh from the bytes written for it returns the same mesh (family, dimension, connectivity, alignment codes, tags, owners, class sets, parents), on machines of either endianness; integers and reals of every width round-trip bit for bit.", "quantifier": "all meshes within format limits", "why_tests_cant": "Quantifies over all meshes, tag names and values.", "anchors": ["src/Omega_h_file.cpp: write, read, write_value, read_value, write_array, read_array, write_sets, read_sets, write_meta, read_meta"]}
{"id": "C33", "title": "XML tag scanner recovers element name, attributes and tag type", "statement": "Scanning the text of a start, end or self-closing tag as produced by the VTK writer yields the tag type, element name and the attribute values; self-closing tags are reported as self-closing.", "quantifier": "all tag names, attribute names and values over the accepted character set", "why_tests_cant": "Quantifies over all names and values.", "anchors": ["src/Omega_h_xml_lite.cpp: parse_tag"]}
{"id": "C34", "title": "Edge-swap tables enumerate valid triangulations of the loop polygon", "statement": "For each loop size 3..7 each listed configuration is a set of size-2 triangles triangulating the polygon: boundary edges are used once and the listed interior edges twice with opposite orientation; configurations are pairwise distinct and their number is the Catalan number, i.e. all triangulations are listed.", "quantifier": "every table entry", "why_tests_cant": "A wrong entry in the 42-configuration table yields inverted or overlapping tets only for particular geometries.", "anchors": ["src/Omega_h_swap3d_tables.hpp"]}
{"id": "C35", "title": "The loop around an edge is found as a closed oriented cycle", "statement": "find_loop on an interior edge with 3..7 surrounding tets returns the surrounding vertices in cyclic order such that consecutive ones are joined by a surrounding tet, whatever the storage order of the tets; on other inputs it stops with an error and never reads out of bounds.", "quantifier": "all cyclic arrangements and all storage orders and local numberings", "why_tests_cant": "The orders of up to 7 tets in all alignments.", "anchors": ["src/Omega_h_swap3d_loop.hpp: find_loop"]}
{"id": "C36", "title": "Refinement templates split each simplex into two with the same boundary and orientation", "statement": "For every simplex containing a split edge in any local position and orientation, the two product simplices are the parent with one endpoint replaced by the new vertex, keep the parent's orientation, and together with the cut side have the parent's boundary; products of lower dimension are exactly the new faces/edges of those.", "quantifier": "all dimensions 1..3, all local edge positions, rotations, all vertex labels", "why_tests_cant": "Quantifies over vertex labels and over all incident orientation codes.", "anchors": ["src/Omega_h_refine_topology.cpp", "src/Omega_h_simplex.hpp"]}
{"id": "C37", "title": "Collapse keeps orientation and deletes exactly the entities that degenerate or merge", "statement": "Collapsing edges replaces the collapsing vertex by its target in the same local position of each surviving entity around it, and produces no entity for the ones that contain both ends of a collapsing edge nor for the sides of such entities that lack the target (they merge with their twin on the target); each surviving product is non-degenerate.", "quantifier": "all connectivity arrays and collapse choices", "why_tests_cant": "Quantifies over all meshes.", "anchors": ["src/Omega_h_coarsen_topology.cpp"]}
{"id": "C38", "title": "The 2D edge swap replaces two triangles by two with the same boundary", "statement": "Swapping the edge shared by two consistently oriented triangles yields two triangles with the same oriented boundary and the new edge joining the opposite vertices.", "quantifier": "all vertex labels and all alignment codes", "why_tests_cant": "All combinations of local positions and rotations.", "anchors": ["src/Omega_h_swap2d_topology.cpp"]}
{"id": "C39", "title": "Renumbering after modification is a bijection onto the new entity range", "statement": "After an adaptation step the new local numbers given to kept and to produced entities are pairwise distinct and cover 0..nnew-1 exactly, kept entities keep their relative order, and products of each modified entity are numbered contiguously.", "quantifier": "all meshes and sets of modified entities with product counts", "why_tests_cant": "Quantifies over all meshes and modification sets.", "anchors": ["src/Omega_h_modify.cpp: get_rep_counts, get_rep2md_order, assign_new_numbering, modify_ents"]}
{"id": "C40", "title": "Generated box meshes are conforming grids", "statement": "The generated element-to-vertex tables for boxes reference only existing vertices, each interior side is shared by exactly two elements with opposite orientation and each boundary side by one; every vertex is used; classification ids map centroid positions to the boundary entity they lie on and named sets refer to the matching faces.", "quantifier": "all grid sizes", "why_tests_cant": "Quantifies over all nx, ny, nz.", "anchors": ["src/Omega_h_box.cpp: make_1d_box, make_2d_box, make_3d_box, classify_box, get_box_class_sets"]}
{"id": "C41", "title": "AMR marking and child codes", "statement": "Child codes pack and unpack losslessly; the split templates place each child's vertices on the right sub-entities so that children tile the parent; the 2-to-1 marking marks every leaf required and the result does not depend on the loop schedule.", "quantifier": "all codes, all table entries, all meshes and schedules", "why_tests_cant": "Schedules and meshes are unbounded.", "anchors": ["src/Omega_h_amr.hpp", "src/Omega_h_amr.cpp: enforce_2to1_refine", "src/Omega_h_hypercube.hpp: hypercube_split_template"]}
{"id": "C42", "title": "Extracting a sub-mesh keeps connectivity, tags and ownership consistent", "statement": "unmap_mesh with lists of kept entities closed under taking sides yields a mesh whose connectivity, through the kept-entity lists, equals the original; tags are carried; owners point at the new copies of the old owners, or the missing owner is reported as -1.", "quantifier": "all meshes and kept-entity lists", "why_tests_cant": "Quantifies over all meshes and subsets.", "anchors": ["src/Omega_h_unmap_mesh.cpp"]}
{"id": "C43", "title": "Array arithmetic helpers are exact, elementwise and total on documented inputs", "statement": "Elementwise operations apply the operation componentwise; interleave and get_component are inverse; find_last returns the last position; is_sorted decides sortedness; sums, minima and maxima do not depend on the division of the array among threads.", "quantifier": "all arrays", "why_tests_cant": "Quantifies over all arrays and counts of arrays.", "anchors": ["src/Omega_h_array_ops.cpp"]}
{"id": "C44", "title": "The allocation ledger reflects exactly the live allocations", "statement": "With allocation tracking on, after any history of allocations and frees the ledger lists exactly the live allocations, the byte total equals the sum of their sizes and the high-water mark is the maximum total reached.", "quantifier": "all histories of allocations and frees", "why_tests_cant": "Unbounded histories.", "anchors": ["src/Omega_h_shared_alloc.cpp: Alloc::init, Alloc::~Alloc"]}
{"id": "C45", "title": "The non-blocking exchange terminates with every message delivered", "statement": "The sparse neighbour discovery protocol terminates on all ranks only after each message has been received, for every interleaving of sends, probes and barrier progress.", "quantifier": "all schedules and communication graphs", "why_tests_cant": "Schedules are unbounded.", "anchors": ["src/Omega_h_comm.cpp: Comm::graph_adjacent, neighbor discovery (NBX)"]}
{"id": "C46", "title": "The type-erased value container owns its payload like a value", "statement": "Copying an `any` gives an independent equal value, moving leaves the source empty, swapping exchanges, assignment including self-assignment leaves the right value, any_cast succeeds exactly for the stored type, and no payload is leaked or destroyed twice.", "quantifier": "all operation sequences, small and large payload types", "why_tests_cant": "Unbounded histories.", "anchors": ["src/Omega_h_any.hpp"]}
{"id": "C47", "title": "Coalescing arrays concatenates them", "statement": "coalesce(arrays) returns the concatenation of the given arrays, for any number of arrays of any sizes.", "quantifier": "all lists of arrays", "why_tests_cant": "Quantifies over all lists of arrays; an out-of-range read in the offset loop may go unnoticed in a test.", "anchors": ["src/Omega_h_array_ops.cpp: coalesce"]}
{"id": "C48", "title": "Swapping an edge in 3D keeps the outer surface", "statement": "For every edge whose 3 to 7 surrounding tets close up, in any storage order and local numbering, and for every configuration, the new tets written by swap3d_topology have the same oriented boundary as the tets they replace; the new triangles and edges are exactly the interior ones of the new tets, each once; and keys2prods gives, for each key, where its products are stored.", "quantifier": "all closed fans of 3..7 tets, vertex names, storage orders, configurations, sets of keys and schedules", "why_tests_cant": "42 configurations in all alignments and loop starts; a single wrong table entry or a swapped vertex gives an inverted tet only for some of them.", "anchors": ["src/Omega_h_swap3d_topology.cpp: swap3d_keys_to_prods, swap3d_topology", "src/Omega_h_swap3d_tables.hpp"]}
{"id": "C49", "title": "Rebalancing puts every element where the partitioner sent it, ordered by global number", "statement": "Mesh::balance, on a number of ranks that is a power of two and whatever marks the geometric bisection chooses, leaves every element on exactly one rank, namely the rank that repeated bisection deals it to; the elements of each rank are ordered by global number; and connectivity, tags, codes and ownership are carried as in any migration.", "quantifier": "all meshes whose ranks own their elements, all marks, numbers of ranks and schedules", "why_tests_cant": "The order of the elements depends on the order in which messages are numbered; a test sees one partition of one mesh.", "anchors": ["src/Omega_h_mesh.cpp: Mesh::balance", "src/Omega_h_inertia.cpp: recursively_bisect", "src/Omega_h_dist.cpp: Dist::set_dest_globals"]}
{"id": "C50", "title": "Parents and children of an adapted mesh stay consistent", "statement": "ask_children lists, for each entity of one dimension, exactly the entities of another dimension whose parent it is, each once, in ascending order and with their codes. Extracting a part of a mesh keeps the parent of every kept entity whose parent is kept, clears the parent of the others, and makes leaves of exactly those that were leaves or lost all their children.", "quantifier": "all meshes with parents, dimensions, lists of kept entities and schedules", "why_tests_cant": "Sentinels for entities without a parent share the code of a valid dimension, and the loops do not cover every dimension; meshes in tests rarely have both.", "anchors": ["src/Omega_h_adj.cpp: invert_parents", "src/Omega_h_mesh.cpp: Mesh::ask_children, Mesh::ask_parents", "src/Omega_h_unmap_mesh.cpp: unmap_parents, unmap_leaves"]}
{"id": "C51", "title": "A mesh written to a VTK file is read back", "statement": "vtk::write_vtu followed by vtk::read_vtu, possibly on machines of different byte order or signedness of char and with or without compression, gives a mesh of the same family and dimension with the same cells, coordinates and global numbers, and with every tag that was asked for, name, number of components and values bit for bit.", "quantifier": "all meshes, tags of every type and name, sets of tags to write, byte orders, schedules of the resizing loops, bytes of the compression library", "why_tests_cant": "Vectors and tensors are padded to three dimensions and cut again depending on their number of components, names are put into XML without quoting, and some names have a meaning to the reader; tests write a few fixed tags.", "anchors": ["src/Omega_h_vtk.cpp: write_vtu, read_vtu_ents, write_tag, read_tag, write_array, read_array, read_known_array", "src/Omega_h_vector.cpp: resize_vectors", "src/Omega_h_matrix.cpp: resize_symms", "src/Omega_h_build.cpp: build_ents_from_elems2verts"]}
{"id": "C52", "title": "The list of time steps survives restarts and crashes", "statement": "After any number of vtk::Writer sessions on a directory, each with its restart time and any writes, and even if the last write of a session is cut short after any number of bytes of the list, the .pvd file can be read and lists exactly the earlier steps up to the restart time followed by the completed writes, in order; and every listed step refers to the data written for its time.", "quantifier": "all histories of sessions, restart times, step numbers, times and crash points", "why_tests_cant": "The list is patched in place: a new line overwrites the end of the file, and what remains after a crash mixes new and old bytes; tests do not crash.", "anchors": ["src/Omega_h_vtk.cpp: read_existing_pvd, write_initial_pvd, update_pvd, read_pvd, Writer::Writer, Writer::write"]}
{"id": "C53", "title": "An expression means the same at every point", "statement": "Evaluating a program of the expression language over the points of a mesh gives at every point the value the program has there when every variable is replaced by its value at that point: whether a variable is a constant or an array with one value per point makes no difference, and neither does the order in which points are visited. After the evaluation each assigned variable holds its value at every point.", "quantifier": "all programs, mixtures of constant and array scalars, vectors and matrices, dimensions 1 to 3, numbers of points, arithmetics and schedules", "why_tests_cant": "Each operator has separate code for each pair of kinds of values and for each dimension, and kinds of arrays are guessed from their sizes; tests try a few formulas.", "anchors": ["src/Omega_h_expr.cpp: ExprReader, promote, ternary, eval_or, gt, add, mul, div, eval_pow, neg, access, make_vector, make_matrix, make_symm, ExprEnv"]}
{"id": "C54", "title": "Compiled expressions agree with direct evaluation", "statement": "Compiling a program with ExprOpsReader and evaluating the operations succeeds with a value and certain variables exactly if ExprReader does so on the same text and environment, with the same value and the same variables; the operations can be kept and evaluated again in other environments with the same agreement.", "quantifier": "all programs, environments, functions supplied by the user, schedules", "why_tests_cant": "Two separate interpreters implement the same language in different orders of evaluation; tests compare a few formulas, if any.", "anchors": ["src/Omega_h_expr.cpp: ExprOpsReader, ExprReader, SemicolonOp, AssignOp, VarOp, NegOp, TernaryOp, CallOp"]}
{"id": "C55", "title": "Splitting quadrilaterals and hexahedra into simplices gives a valid mesh", "statement": "Every quadrilateral is cut into two properly oriented triangles along the diagonal through its smallest vertex, and every hexahedron into five or six properly oriented tetrahedra that fill it and whose surface are its sides cut the same way; so neighbouring cells agree on their common sides and the result is again a mesh without gaps or overlaps. The symmetric variants do the same with a new vertex in the middle of every side and cell, placed at the average of the corners.", "quantifier": "all numberings of the vertices of the cells, all meshes, all schedules", "why_tests_cant": "A hexahedron has 8! orders of its vertices and 64 ways to cut its sides; tests split generated boxes, in which every cell is numbered alike.", "anchors": ["src/Omega_h_simplify.cpp: tris_from_quads, tets_from_hexes, tris_from_quads_symmetric, tets_from_hexes_symmetric, hex_bur_ring", "src/Omega_h_build.cpp: build_box"]}
{"id": "C56", "title": "Which edge collapses are accepted and which one is chosen", "statement": "In a pass of coarsening a marked vertex may be merged into a neighbour exactly if it lies on a model entity of the dimension of the edge, in every cell at the edge the side that the merged cell is flattened onto lies on a model entity of the dimension of that cell, every other edge of the vertex stays shorter than the limit, and the new elements reach the wanted quality (and, if asked, improve on the worst old one). Of the accepted edges of a vertex the shortest is chosen, of equally short ones one with the best quality; all copies of the vertex on all ranks make the same choice.", "quantifier": "all simplex meshes on any number of ranks, classifications, lengths and qualities in a linear order, options, schedules", "why_tests_cant": "The filters run one after another on shrinking lists of candidates with bit codes for the two directions, with copies on other ranks synchronised in between; tests look at the final mesh only.", "anchors": ["src/Omega_h_coarsen.cpp: coarsen_verts, coarsen_ghosted, put_edge_codes, get_edge_codes, filter_coarsen_candidates", "src/Omega_h_check_collapse.cpp: check_collapse_class, check_collapse_exposure", "src/Omega_h_coarsen_qualities.cpp: coarsen_qualities, filter_coarsen_dirs, filter_coarsen_min_qual, filter_coarsen_improve", "src/Omega_h_collapse_rail.cpp: choose_rails, find_rails", "src/Omega_h_coarsen_overshoot.cpp: prevent_coarsen_overshoot"]}
{"id": "C57", "title": "Adaptation carries every field over", "statement": "After a refinement, coarsening or swap every field that is to be transferred exists on the new mesh with the same name, type and number of components. Entities that stay keep their values bit for bit. Entities that are new get: inherited fields from the old entity they lie in (for swaps, from the edge that was swapped), interpolated fields the average over the ends of the split edge, densities and pointwise fields on split elements the value of the element, pointwise fields on other new elements the value of the nearest old element of the cavity, lengths, sizes and qualities their measures; no field of another rule is touched, and no field is lost.", "quantifier": "all meshes of dimension 1 to 3, numberings of same and new entities, sets of fields with their options, values, orders of parallel loops", "why_tests_cant": "Several transfer rules run one after another over the same list of fields and later ones overwrite what earlier ones wrote; each writes products and same entities with separate kernels in any order. Tests transfer a few fields of a box.", "anchors": ["src/Omega_h_transfer.cpp: transfer_refine, transfer_coarsen, transfer_swap, transfer_copy, transfer_common, transfer_inherit_refine, transfer_inherit_coarsen, transfer_inherit_swap, transfer_pointwise, transfer_linear_interp, transfer_metric, transfer_density_refine, transfer_length, transfer_size, transfer_quality, transfer_face_flux"]}
{"id": "C58", "title": "What adaptation fails to conserve is recorded", "statement": "For every conserved density and momentum the library keeps an error per element such that, through any sequence of refinements, coarsenings and swaps, the integral over the mesh minus the sum of the errors stays what it was at first, in total and in every material. Recording the errors always succeeds and does not depend on the order of execution.", "quantifier": "all histories of modifications, meshes, materials, classifications, numbers of components, densities, schedules, with exact arithmetic", "why_tests_cant": "Errors are introduced, carried over and spread in cavities that are sorted by whether they touch the boundary and separated by material, and each operation has its own flags for what it conserves; a loss shows only in a sum after a long history.", "anchors": ["src/Omega_h_conserve.cpp: separate_by_color, separate_cavities, carry_class_bdry_integ_error, introduce_class_integ_error, transfer_integ_error, OpConservation, transfer_conserve_refine, transfer_densities_and_conserve_coarsen, transfer_densities_and_conserve_swap", "src/Omega_h_graph.cpp: unmap_graph, filter_graph_edges", "src/Omega_h_map.cpp: add_into"]}
{"id": "C59", "title": "Correcting the recorded errors restores the totals", "statement": "At the end of adaptation the errors recorded for conserved quantities are spread out and taken from the fields. This comes to an end; afterwards the integral of every density is, in every material, what it was less the errors, with no element changed by more than the chosen tolerance of what it holds, and the momentum of the mesh is what it was less its errors, with fixed components of velocities unchanged.", "quantifier": "all meshes, materials, densities, velocities, errors, tolerances, numbers of components, numbers of rounds, schedules, with exact arithmetic", "why_tests_cant": "The spreading is an iteration whose number of rounds depends on the mesh and the errors, and whose conservation rests on the cancelling of what passes through every side; that it ends, and for which errors it does not, cannot be seen from finitely many runs.", "anchors": ["src/Omega_h_conserve.cpp: correct_integral_errors, correct_density_error, correct_momentum_error, diffuse_integrals_weighted, diffuse_densities, diffuse_densities_once, get_elem_diffusion_graph", "src/Omega_h_adj.cpp: elements_across_sides"]}
{"id": "C60", "title": "Edges are swapped in the best allowed way and only for the better", "statement": "A swapping pass picks, of the edges it is offered, exactly those whose surrounding elements can be exchanged for elements among which the worst is better than the worst one now there, without making an edge that is too long. Every picked edge gets the best allowed arrangement, the first of equally good ones, and all ranks that hold a copy of the edge agree on it.", "quantifier": "all meshes of triangles and tetrahedra, distributed over any ranks, offered edges, measures of quality and length, limits and schedules, with exact arithmetic", "why_tests_cant": "There are up to 42 arrangements around an edge, whose qualities and lengths are computed lazily through two caches indexed by shared tables and with early exits; a wrong cache entry shows only for particular orders of qualities. That inverted elements defeat the comparison with the marker for 'no arrangement' needs a mesh no test starts from.", "anchors": ["src/Omega_h_swap3d_choice.hpp: choose", "src/Omega_h_swap3d_qualities.cpp: swap3d_qualities", "src/Omega_h_swap2d_qualities.cpp: swap2d_qualities", "src/Omega_h_swap.cpp: filter_swap_improve, filter_swap", "src/Omega_h_swap2d.cpp: swap2d_ghosted", "src/Omega_h_swap3d.cpp: swap3d_ghosted"]}
{"id": "C61", "title": "Classification is derived from what is around an entity", "statement": "Completing the classification of a mesh gives every entity the model entity of lowest dimension that the entities around it are on, if they agree on it and the entity can lie inside of it, and a model entity of its own dimension otherwise. The dimension of the model entity is at least that of the entity and at most that of the entities around. The result does not depend on how entities are numbered or listed, and all copies of an entity get the same.", "quantifier": "all meshes up to dimension 3 distributed over any ranks, any amount of classification given beforehand, all numberings and schedules", "why_tests_cant": "The rule is a loop whose state changes with every entity around, in the order in which they are listed; that the outcome does not depend on this order, and the one case in which it does, takes all orders of all possible surroundings.", "anchors": ["src/Omega_h_class.cpp: finalize_classification, project_classification, copy_and_remove_or_default, has_any_ids, remove_all_ids"]}
{"id": "C62", "title": "Marks follow incidence and classification on every copy", "statement": "Marking downward marks exactly the entities in the closure of marked ones, marking upward exactly those with a marked entity on their boundary, and marking those of which all are marked exactly these. Asking for the entities on a list of model entities gives exactly those in the closure of an entity that has the dimension of the model entity and is inside of it, each once and in ascending order. All of this holds on every copy of an entity, also where the entity that it bounds is only on another rank, and does not depend on how the mesh is distributed.", "quantifier": "all meshes up to dimension 3 distributed over any ranks with or without ghosts, all marks, all lists of model entities, all schedules", "why_tests_cant": "Which copies see which neighbours depends on the distribution; marks must be combined across ranks exactly when owners do not see everything, and the numbers are looked up by binary search, so an error shows only for some partitions or some numbers of model entities.", "anchors": ["src/Omega_h_mark.cpp: mark_down, mark_up, mark_up_all, get_eq_marks, mark_class_closures", "src/Omega_h_mark.hpp: binary_search", "src/Omega_h_mesh.cpp: reduce_array, sync_array, ents_on_closure, owners_have_all_upward"]}
{"id": "C63", "title": "Improvement is tried on the layers around bad elements", "statement": "The elements offered for improvement are exactly those within the given number of layers of an element of low quality, where a layer goes across sides, on every copy and however the mesh is distributed; offering them ends normally whenever there is an element of low quality. The edges then offered for swapping are exactly those inside the domain that bound an offered element, and swapping is skipped exactly if there are none.", "quantifier": "all meshes up to dimension 3 distributed over any ranks, all qualities, thresholds, numbers of layers, teams and schedules", "why_tests_cant": "Marks are passed on round after round through a graph of neighbours that leaves out the element itself, so which elements are reached depends on the parity of paths through the whole mesh; tests only see that quality improves in the end.", "anchors": ["src/Omega_h_mark.cpp: mark_sliver_layers, mark_dual_layers, mark_exposed_sides", "src/Omega_h_mesh.cpp: ask_dual, derive_adj", "src/Omega_h_adj.cpp: elements_across_sides", "src/Omega_h_graph.cpp: graph_reduce", "src/Omega_h_swap.cpp: swap_part1", "src/Omega_h_coarsen.cpp: coarsen_slivers"]}
{"id": "C64", "title": "Comparing meshes finds every difference and nothing else", "statement": "Comparing two meshes reports a difference exactly if family, dimension or numbers of entities differ, or if at a compared dimension an entity has other sides or vertices, or a tag of the first mesh is missing in the second one or has values that are not equal within the tolerance given for it. It reports more exactly if there is no difference but the second mesh has a further tag, and the same otherwise. The answer is the same on every rank, does not depend on how either mesh is distributed or numbered locally, nor on the schedule; two distributions of one mesh are always the same; being the same does not depend on the order of the meshes.", "quantifier": "all meshes, all pairs of distributions over any ranks, all tags, tolerances and floors, all schedules, teams and orders of reduction", "why_tests_cant": "Both meshes are moved to a common partition by global numbers, copies are picked there and flags are reduced over ranks, so an error shows only for certain distributions, and a comparison that misses a difference makes all regression tests that rely on it pass.", "anchors": ["src/Omega_h_compare.cpp: compare_meshes, compare_arrays, compare_copy_data, get_local_conn, get_real_diff, MeshCompareOpts::tag_opts", "src/Omega_h_owners.cpp: reduce_data_to_owners", "src/Omega_h_linpart.cpp: copies_to_linear_owners", "src/Omega_h_comm.cpp: reduce_and", "src/Omega_h_array_ops.cpp: operator==, are_close, are_close_abs"]}
{"id": "C65", "title": "Replacing entities numbers the new mesh alike on any partition", "statement": "After entities are replaced, the new entities have the global numbers 0 to n-1, each once. All copies of a new entity have the same number and the same owner, which is one of them. Entities that stay keep their order, what comes from an earlier old entity comes before what comes from a later one, and the products of a replaced entity are numbered consecutively. The numbers do not depend on how the mesh is distributed, on local numbers or on the schedule. Before the replacement, all elements around a chosen entity get the rank that owns it as their owner, and elements around none keep their rank.", "quantifier": "all meshes up to dimension 3 distributed over any ranks, all choices of replaced entities and numbers of products, all schedules", "why_tests_cant": "The numbers come from counts that are collected on whichever copies are owned, moved to a linear partition, scanned there across ranks and moved back; a count that is lost or taken twice shows only for partitions in which a representative and what it represents are owned by different ranks.", "anchors": ["src/Omega_h_modify.cpp: modify_globals, modify_owners, modify_ents, get_rep_counts, assign_new_numbering, get_rep2md_order_adapt, set_owners_by_indset", "src/Omega_h_owners.cpp: update_ownership", "src/Omega_h_globals.cpp: rescan_globals", "src/Omega_h_unmap_mesh.cpp: unmap_owners"]}
{"id": "C66", "title": "Statistics take every entity once", "statement": "Counting marked entities, counting all entities, histograms, the numbers of values below, in and above a range, and averages take every entity of the mesh exactly once, however many ranks have copies of it, and do not depend on how the mesh is distributed, on the schedule or on the order of reduction. Every value between the limits of a histogram is in exactly one bin, so that the bins add up. A mesh counts as adapted exactly if every element has the desired quality and every edge a length in the desired range.", "quantifier": "all meshes distributed over any ranks with any ownership, all values, limits and numbers of bins, all schedules, teams and orders of reduction", "why_tests_cant": "Shared entities are counted on the ranks that own them only, and bounds of bins are shared by neighbours, so an error shows only for certain partitions and for values at bounds; that counts are summed in 32 bits shows only on meshes of billions of entities.", "anchors": ["src/Omega_h_histogram.cpp: get_histogram, print_goal_stats", "src/Omega_h_mark.cpp: count_owned_marks", "src/Omega_h_mesh.cpp: nglobal_ents, owned_array", "src/Omega_h_array_ops.cpp: get_sum, get_min, get_max", "src/Omega_h_adapt.cpp: print_adapt_status, print_adapt_histograms"]}
{"id": "C67", "title": "Moving a mesh by steps keeps it within limits and loses nothing", "statement": "Moving the vertices of a mesh by a field, or its metric towards a target, takes the first of the parts 1, 1/2, 1/4, ... after which no element is worse and no edge is longer than is allowed. Afterwards the mesh is within these limits, what has been moved and what remains to be moved add up to the whole field, and the target is kept until it is reached. All copies of a vertex are moved alike, and lengths, qualities and sizes that are asked for afterwards are those of the new coordinates and metric. A mesh outside of the limits is not moved.", "quantifier": "all meshes distributed over any ranks, all fields, metrics and limits, all ways to measure quality and length, all numbers of steps, schedules, teams and orders of reduction", "why_tests_cant": "Which part is taken depends on all elements on all ranks; cached qualities and lengths must be dropped at each try, so an error shows as a mesh that is accepted by the measures of a former step. What happens after a stall or on ranks without vertices shows only for rare fields and partitions.", "anchors": ["src/Omega_h_approach.cpp: warp_to_limit, approach_metric, okay, check_okay", "src/Omega_h_mesh.cpp: set_coords, set_tag, react_to_set_tag, ask_lengths, ask_qualities, max_length", "src/Omega_h_metric.cpp: interpolate_between_metrics", "src/Omega_h_array_ops.cpp: interpolate_between, add_each, divide_each_by"]}
{"id": "C68", "title": "Edges and faces of a partitioned mesh are the same on every partition", "statement": "When a mesh is built from the element vertices that each rank has and the global numbers of vertices, every side of an element is exactly one edge or face of its rank, and there are no others. Edges and faces of any ranks are copies of one another exactly if their vertices have the same global numbers, in any order that describes the same polygon. All copies have the same owner, which is one of them and on the lowest rank that has one, and the same global number, and list their vertices in the same global order, the smallest first. The numbers over all ranks are 0 to n-1, each used.", "quantifier": "all simplex and hypercube meshes up to dimension 3 split over any number of ranks, all numberings of vertices, all schedules", "why_tests_cant": "Copies are found by sending entities to the rank that serves their smallest vertex, where they are sorted by origin and matched; orientation, order and owner depend on the global numbers and on which ranks meet, so an error shows only for certain partitions and numberings.", "anchors": ["src/Omega_h_build.cpp: resolve_derived_copies, sort_locally_based_on_rank, add_ents2verts, build_ents_from_elems2verts", "src/Omega_h_align.cpp: get_codes_to_canonical", "src/Omega_h_adj.cpp: find_unique, find_matches_ex", "src/Omega_h_linpart.cpp: globals_to_linear_owners", "src/Omega_h_owners.cpp: globals_from_owners"]}
{"id": "C69", "title": "The profile of a run tells how often and how long each region was called from where", "statement": "A program marks regions by begin_code with a name and end_code. Afterwards the profile has exactly one entry for each call path (the names of the open regions from the outermost one to the region itself), with the number of calls and the total duration of the calls that have ended; the running total of the innermost open region is right at every moment. Ending a region when none is open is the only error. Printing shows each entry once, a region before those called from it, indented by their number, siblings in the order in which they were first called, or, in the sorted report, by decreasing time and then in that order, without those below the given percentage. The bottom-up report has exactly one entry for each way in which call paths end, with the sum of the calls and of the self times of these paths.", "quantifier": "all sequences of begins and ends with any names, at any times; all values of the members that the copy constructor leaves uninitialised; all thresholds", "why_tests_cant": "Whether a region finds its entry depends on the whole history of the tree, with recursion and equal names at different places; links between siblings are kept by hand; a test has few regions and compares no times.", "anchors": ["src/Omega_h_profile.hpp: History, find_child_of, create_child_of, find_root, create_root, start, stop, measure_total_runtime", "src/Omega_h_profile.cpp: first, next, pre_order_next, compute_depths, simple_print, invert, print_time_sorted"]}
{"id": "C70", "title": "The table of top functions is right on all ranks", "statement": "On each rank the table has one row for each name of a region that ran there, with the sum of the self times of all calls of regions with that name. On rank 0 the tables of all ranks are collected: one row for each name that occurs on any rank, with the average over all ranks of the times, and the least and the greatest time among the ranks that have the name. This does not need all ranks to have run the same regions.", "quantifier": "all numbers of ranks, all sets of regions and times on each rank", "why_tests_cant": "The tables travel as a string of names with separators and an array of times; that ranks run different regions depends on the partition and the data, and tests run with one rank.", "anchors": ["src/Omega_h_profile.cpp: invert, gather, split_char_vec, sendrecv, print_top_sorted"]}
{"id": "C71", "title": "A command line is accepted exactly if it can be read as declared, and gives the values on it", "statement": "A program declares flags, each with a number of values, and required arguments, and parses its command line. Parsing always ends and stays inside argv. It succeeds exactly if the words can be read as declared: a word that names a flag begins that flag and the flag takes the words behind it as its values whatever they look like; no flag is given twice; the other words are the required arguments in order, and all of these are there. Then each flag counts as parsed exactly if it was given, its values and the arguments are the words on the line, flags that were not given keep their defaults, and the words nobody asked for stay on the line, in order, for the next parser. The final parse succeeds exactly if in addition nothing stays and no help was asked for. The answer does not depend on the order in which flags were declared.", "quantifier": "all declarations with different flag names, all lines, all contents of argv behind the line", "why_tests_cant": "The words are moved inside argv while the loop runs; only some lines with some orders of declaration make the loop look behind the end of the line.", "anchors": ["src/Omega_h_cmdline.cpp: CmdLine::parse, CmdLine::parse_final, CmdLineFlag::parse_impl, shift, check_empty, get, parsed"]}
{"id": "C72", "title": "An edge is split only if the elements this makes are good enough in the new mesh", "statement": "Before edges are split the code predicts what splitting each candidate would give. The prediction for an edge is exactly the smallest of 1 and the qualities that the new triangles or tetrahedra have in the new mesh, with the points and metrics that the new mesh carries. Exactly the marked edges whose new elements all reach the allowed quality are offered to the choice of the edges to split, with that smallest quality; if there is none, nothing is done. Therefore whichever of the offered edges are split together, and however the new mesh is numbered, every element this makes has at least the allowed quality.", "quantifier": "all triangle and tetrahedron meshes on one rank, all points, metrics, marks and allowed qualities that are numbers, all functions for midpoints, averages and quality, all choices of keys, all schedules", "why_tests_cant": "The prediction and the construction are two separate pieces of code with their own handling of codes, templates and flips; tests only see that final quality is acceptable on some meshes.", "anchors": ["src/Omega_h_refine_qualities.cpp: refine_qualities, MetricRefineQualities", "src/Omega_h_refine.cpp: refine_ghosted", "src/Omega_h_refine_topology.cpp: refine_domains_to_pairs", "src/Omega_h_metric.cpp: get_mident_metrics", "src/Omega_h_quality.hpp: MetricElementQualities"]}
{"id": "C73", "title": "A vertex is collapsed only if the elements and edges this makes are good enough in the new mesh", "statement": "Before vertices are collapsed the code predicts what each collapse would give. The prediction is exactly the smallest of 1 and the qualities that the elements made by the collapse have in the new mesh. Whichever of the offered vertices are collapsed together, as long as no two of them are in one edge or element, every element this makes has at least the allowed quality, and every edge it makes is shorter than the allowed length, in the new mesh with its own numbers.", "quantifier": "all triangle and tetrahedron meshes on one rank, all lengths, qualities, limits and offered collapses, all sets of vertices chosen from those offered that are apart, all new numberings, all schedules", "why_tests_cant": "The check before the collapse, the marking of what goes away, the choice of what is rebuilt and the rebuilding are four separate pieces of code with their own handling of codes and templates; tests only see that final quality is acceptable on some meshes.", "anchors": ["src/Omega_h_coarsen.cpp: coarsen_ghosted, coarsen_element_based2", "src/Omega_h_coarsen_qualities.cpp: coarsen_qualities", "src/Omega_h_coarsen_overshoot.cpp: prevent_coarsen_overshoot", "src/Omega_h_coarsen_topology.cpp: find_rails, get_verts_onto, mark_dead_ents, find_coarsen_domains, coarsen_topology"]}
{"id": "C74", "title": "Data attached to a mesh under a name are kept until overwritten or removed, and derived data are never stale", "statement": "Data added for the entities of a dimension under a name are read back unchanged, whatever calls were made before and after, as long as no later call wrote, removed or dropped them. Removing takes away exactly what has the name. Adding and setting succeed exactly when the entities exist, the name is not empty, the size fits and, for a new name, the numbers of components and names are in range; otherwise the program ends. Positions list what is stored, each once. Edge lengths, element qualities and element sizes that are asked for are always those of the present coordinates and metric, although they are stored once computed.", "quantifier": "all meshes, all sequences of adding, setting, removing and asking, all names, dimensions, types and arrays, all ways of measuring", "why_tests_cant": "Stored derived data are stale only after particular sequences of calls; tests make the usual sequence once.", "anchors": ["src/Omega_h_mesh.cpp: add_tag, set_tag, remove_tag, has_tag, get_tag, get_array, react_to_set_tag, ask_lengths, ask_qualities, ask_sizes", "src/Omega_h_tag.cpp: TagBase, as"]}
{"id": "C75", "title": "Adapting goes on until nothing more can be done, and declines exactly a mesh that is as desired", "statement": "Adapting returns false exactly for a mesh whose lengths and qualities are as desired, and then leaves it alone. Otherwise, if it ends, the result comes from passes of refining and coarsening after which neither has anything to do, followed by passes of swapping and of coarsening slivers, made only while the quality is too low, after which the quality is as desired or neither has anything to do. Whatever every pass keeps is kept. It ends if every pass that does something makes progress. An adapted mesh of the desired quality need not be adapted again.", "quantifier": "all meshes, options and passes, all numbers of turns", "why_tests_cant": "The loops end after different numbers of passes for every mesh and metric; what holds at the end for all of them cannot be seen from single runs.", "anchors": ["src/Omega_h_adapt.cpp: adapt, pre_adapt, validate, satisfy_lengths, satisfy_quality, print_adapt_status"]}
{"id": "C76", "title": "Small matrices, rotations, affine maps and boxes do what they are called", "statement": "Products and sums are what they are called and can be bracketed freely; the inverse of a matrix with nonzero determinant, of an affine map and of a tall or wide matrix with independent columns or rows undoes it; packing symmetric matrices in either order loses nothing; rotations keep lengths, angles, handedness and their axis and give back their angle; an orthonormal basis is made from every unit vector; joining boxes gives the smallest box containing both, bounding boxes contain all points and touch some on every side, and the map from a box takes it onto the unit box. Choosing between a unit vector and its negative does not depend on which of the two was given.", "quantifier": "all matrices of one to three dimensions (products, traces and boxes: of any), all vectors, angles and sets of points, in exact arithmetic", "why_tests_cant": "Unit tests check a few matrices; a formula wrong in one entry or for vectors with a zero or negative component is not noticed by them.", "anchors": ["src/Omega_h_matrix.hpp: invert, pseudo_invert, determinant, symm2vector, vector2symm, rotate, form_ortho_basis, deviator, resize", "src/Omega_h_vector.hpp: positivize, cross", "src/Omega_h_affine.hpp: invert", "src/Omega_h_bbox.hpp: unite, make_equilateral, get_affine_from_bbox_into_unit", "src/Omega_h_bbox.cpp: find_bounding_box"]}
{"id": "C77", "title": "Sizes, normals, gradients and coordinates of triangles and tetrahedra fit together", "statement": "An affine map multiplies the size of a simplex by its determinant and exchanging corners changes only the sign; a point cuts a simplex into parts that add up to it, and a point on an edge cuts it in proportion; the gradient of the size at a corner tells exactly how the size changes when the corner moves. Barycentric coordinates are the only weights that add up to one and give the point, in a simplex that is not flat, and belong to the foot of the perpendicular otherwise; a point is found inside exactly if it is in the simplex, that is, not beyond any side. The plane of every side contains that side's corners and points away from the opposite one. Edge vectors follow the tables; the implied metric of a triangle is the only one in which all its edges have length one; and the centre of the circle is as far from all corners.", "quantifier": "all triangles in the plane and in space, all tetrahedra and all points, in exact arithmetic", "why_tests_cant": "Tests use one reference simplex, in which many wrong signs and orders give the same numbers; the identities must hold for every shape and orientation.", "anchors": ["src/Omega_h_shape.hpp: simplex_basis, triangle_area_from_basis, tet_volume_from_basis, barycentric_from_global, is_barycentric_inside, element_edge_vectors, element_implied_metric, get_side_vector, get_side_plane, get_size_gradient, get_circumcenter_vector", "src/Omega_h_simplex.hpp: simplex_down_template, simplex_opposite_template"]}
{"id": "C78", "title": "The inertial bisection cuts the points by a plane that halves the mass", "statement": "The marks are always those of the points beyond some plane at right angles to the given axis, or to one that differs from it by a thousandth in one component. If along one of these axes there is a place where a plane halves the mass within the tolerance, in a gap between points wider than the range over two to the 51st, then the marked points have half of the mass within the tolerance. Cuts are looked for up to the farthest point. The masses balance around the centre; the matrix gives every direction its moment of inertia; and the axis chosen has the least moment of all. If no cut is good enough, the best of those that were tried is given.", "quantifier": "all sets of points and masses that are not negative, all tolerances and axes, in exact arithmetic", "why_tests_cant": "Tests cut one regular mesh in which the first plane is good enough; the search, the fall-back to other axes and the result when both fail are not reached.", "anchors": ["src/Omega_h_inertia.cpp: get_center, get_matrix, get_axis, get_distances, mark_axis_bisection, mark_bisection_internal, mark_bisection_given_axis"]}
{"id": "C79", "title": "Paths, kinds of files and the removal of directories", "statement": "A path is taken apart into the directory and the name of a file, and a name into stem and extension, without losing anything; joining a directory and a name gives a path with those parts; a file named in another one is looked for beside it. Regular files, directories, links, devices and pipes are told apart whatever their permissions. Removing a directory removes all that is in it, nothing that is not in it, and gives the number of things removed.", "quantifier": "all paths, all modes that stat can give, and all trees of directories", "why_tests_cant": "Tests use a few paths with a directory in front, regular files and directories without links.", "anchors": ["src/Omega_h_filesystem.cpp: path::filename, path::parent_path, path::extension, path::stem, operator/, status, remove_all", "src/Omega_h_vtk.cpp: read_pvtu, read_pvd"]}
{"id": "C80", "title": "Clamping, choosing and intersecting metrics", "statement": "A clamped metric asks in every direction for a length between the least and the greatest allowed, and a metric that already does so is not changed. The metric chosen to measure an element is one of those given and has the largest determinant. The intersection of two metrics asks in every direction for a length no greater than either of them does, for no less than both together do, and is the first where the second asks for nothing more; also if the metrics ask for nothing in some directions.", "quantifier": "all metrics in exact arithmetic, all directions and all limits on lengths", "why_tests_cant": "Tests intersect a few pairs of metrics, none of them degenerate in the plane, and compare a few entries.", "anchors": ["src/Omega_h_metric.hpp: clamp_metric, maxdet_metric", "src/Omega_h_metric_intersect.hpp: intersect_metrics, intersect_degenerate_metrics", "src/Omega_h_eigen.hpp: compose_ortho"]}
{"id": "C81", "title": "Generating metrics from sources", "statement": "Metrics generated from a list of sources ask for at least as much as every source does, scaled by one common number if the source may be scaled, and clamped if lengths are limited; if the number of elements is limited, the number expected of the result is within the limits. No sources or contradictory limits are refused. Limits that are not asked for have no influence. Data on vertices or on elements that are a scalar, its gradient or its second derivatives can be used as a source, by differentiating and fitting until they are second derivatives at vertices.", "quantifier": "all lists of sources, all limits, all ways in which the number of elements depends on the metrics, and all tags", "why_tests_cant": "Tests use one or two sources and limits in which the first or second round succeeds.", "anchors": ["src/Omega_h_metric_input.cpp: generate_metrics, get_derivative_metrics", "src/Omega_h_metric.cpp: get_metric_scalar_for_nelems"]}
{"id": "C82", "title": "Distances between boundaries that are close to each other", "statement": "The distance given for a triangle or tetrahedron that lies between two parts of the boundary is the least distance of a corner, all of whose edges go across, to the opposite side, counted only if the closest point lies on that side; if there is none, none is given. It does not depend on where the element lies.", "quantifier": "all positions of the corners in exact arithmetic, and all choices of the edges that go across", "why_tests_cant": "Tests use one triangle and one tetrahedron with the corner at the origin and never with more than one corner that counts.", "anchors": ["src/Omega_h_confined.cpp: find_bridge_edges, get_tri_pad_dists, get_tet_pad_dists"]}
{"id": "C83", "title": "Quality of triangles", "statement": "The quality of a triangle in a metric is at most one, and one only for triangles that are not inverted and whose three edges are equally long in the metric; it is positive for triangles that are not inverted and negative for inverted ones. In one dimension, the values by which overlapping changes are chosen are zero and one in turn.", "quantifier": "all triangles of nonzero size in exact arithmetic, and all metrics of the plane", "why_tests_cant": "Tests compare the quality of a few triangles; that none is above one is a statement about all.", "anchors": ["src/Omega_h_quality.hpp: metric_element_quality, mean_ratio", "src/Omega_h_quality.cpp: get_1d_cavity_qualities", "src/Omega_h_shape.hpp: metric_size, mean_squared_metric_length"]}
{"id": "C84", "title": "Smoothing values by averaging", "statement": "If averaging over neighbours ends, the values on the boundary are those given, every other value is the average of numbers close to the values at its neighbours, and no value leaves the range of those given. Values that already are the averages of their neighbours are given back. If a vertex off the boundary has no neighbours the averaging does not end.", "quantifier": "all meshes seen as graphs, all values, all tolerances and any number of rounds", "why_tests_cant": "Tests solve one problem on one mesh and compare with the known solution.", "anchors": ["src/Omega_h_laplace.cpp: solve_laplacian", "src/Omega_h_graph.cpp: graph_weighted_average"]}
