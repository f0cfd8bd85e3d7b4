# Formal model of omega_h — design

Source: `/repo` (sandialabs/omega_h, pinned commit), read as text only.
Model and proofs: `lean/Verif/**`, Lean 4.33.0, single Mathlib modules where needed.

## 1. Trusted base

* Lean's kernel, and the axioms `propext`, `Classical.choice`, `Quot.sound`. No other axiom occurs:
  `lean/Verif/Audit.lean` prints the axioms of every theorem listed in `MANIFEST.json`. There is no
  `sorry`, `native_decide`, `bv_decide`, `implemented_by` or `unsafe`. Finite tables are checked with
  `decide +kernel`, that is by the kernel's own evaluation.
* The reading of the C++. Every definition of the model cites the file and lines it models, and says
  where it simplifies. Nothing else ties the model to the compiled code.
* MPI: messages between two ranks arrive in order; synchronous sends, probes, the non-blocking barrier
  (C45), neighbourhood collectives, `MPI_Allreduce`, `MPI_Exscan` and `MPI_Bcast` do what the standard
  says. Reductions over ranks of non-associative operations are modelled over an arbitrary tree.
* The `std::` containers, streams, `std::stable_sort`, `std::to_string`, `std::stod` and zlib meet their
  specification. zlib and the printing of times are parameters of the theorems with the one law that
  what was written can be read back.
* 32-bit `LO`/`I32` overflow is modelled where a property is about it (linear partitions, `I8` marks,
  alignment codes, `Int128`, keys, hashes, file formats); elsewhere sizes are taken to be below 2^31.
* Floating point: exact in an arbitrary linear order or ordered field where only order and exact
  identities matter (C25, C40), abstract operations with few laws (C53, C54), bit patterns where values
  are only moved (C20–C24, C32, C51), IEEE doubles as sign/mantissa/exponent in C13. Rounding is not
  modelled otherwise.

## 2. Modelling conventions

* Arrays are `List`s. A freshly allocated, uninitialised `Write<T>(n)` is a memory
  `List (Option T)` filled with `none`; reading it out while a cell is still `none` gives the
  outcome `none` (indeterminate value = undefined behaviour).
* An out-of-range read or write, a failed `OMEGA_H_CHECK`, a division by zero and a shift out of
  range are *distinct outcomes*: `none`; or `Res.fail` (the program stops with a message) and `Res.ub`
  (undefined behaviour) where the difference matters; `Outcome` for loops that may not end; `ParseOut`
  for parsers that also throw. Theorems that say "`= some …`" or "`= .ok …`" therefore also say that
  the code neither aborts nor runs into undefined behaviour.
* `parallel_for(n, f)` is executed with an arbitrary schedule: all single writes of all iterations
  are performed in an order given by an arbitrary permutation (`Sched`). Theorems quantify over it.
  Atomics are indivisible steps taken in an arbitrary order. `parallel_reduce` is a fold over an
  arbitrary division into threads (`Team`).
* MPI: a communicator of `P` ranks is a list of `P` per-rank states; collectives are functions on
  that list. Message-level protocols (NBX discovery, futures) are transition systems.
* Loops that may not end are iterated with fuel, and termination is a theorem (C25, C27, C29, C30).
* A property that is false of the code stays in the list as it should be. Its negation is proved with
  a concrete witness (`…_refuted`), and what does hold is proved (`…_partial`). Its status is then
  "partial". A limit that only absurd sizes reach (more than 2^31 ranks, 2^63 bytes) is recorded with
  its own `_refuted` theorem and does not change the status.
* Specifications in `Verif/Spec` do not mention the model's helpers. Beside each theorem an `example`
  shows a concrete case that meets its hypotheses.

## 3. Layout

* `Verif/Model/*`  — executable model, one file per group of source files, definitions cite the code.
* `Verif/Spec/*`   — short independent specifications.
* `Verif/Lemmas/*` — helper lemmas.
* `Verif/Props/*`  — the property theorems with non-vacuity examples, one file per property.
* `Verif/Audit.lean` — axioms of every property theorem.
* `seeded/LOG.jsonl` — wrong programs tried against the theorems.

## 4. Plan and result per property

Statements are in `properties.jsonl`, theorem names in `MANIFEST.json`.

| id | status | what is modelled | how it is proved |
|----|----|------------------|------------------|
| C01 | proved | serial and OpenMP `inclusive_scan`, `offset_scan`, `fill_right` | induction on the array; chunked scan = serial scan for any associative operation and number of threads |
| C02 | proved | comparator, `stable_sort` contract, `sort_by_keys`, `sort_small_range` | uniqueness of the stable sorted permutation; an insertion sort meets it |
| C03 | proved | `collect_marked`, `mark_image`, `invert_marks`, `invert_injective_map` | scatter lemma, prefix sums |
| C04 | proved | `invert_map_by_sorting`, `invert_map_by_atomics`, `invert_funnel` | invariant over the atomic steps in any order; sortedness |
| C05 | proved | `unmap`, `map_into`, `map_onto`, `permute`, `expand`, `compound_maps` | scatter lemma, all schedules |
| C06 | proved | `get_degrees`, `invert_fan`, `fan_reduce`, `multiply_fans` | prefix sums |
| C07 | proved | `globals_to_linear_owners`, `linear_partition_size`, `find_total_globals` | integer division with the code's casts |
| C08 | proved | `suggest_slices` | integer division |
| C09 | proved | alignment codes | finite table lifted to arbitrary vertex data |
| C10 | proved | template tables of all families | `decide +kernel` over whole tables |
| C11 | proved | `invert_adj` | refinement to the incidence relation |
| C12 | proved | `find_unique`, `form_uses`, `find_matches`, `reflect_down` | refinement to sets of vertices; canonical codes |
| C13 | proved | `Int128`, `repro_sum`, `max_exponent` | BitVec/Int arithmetic; commutative monoid fold over any tree |
| C14 | partial | base64 | encoder = RFC 4648 spec; round trip by length mod 3 |
| C15 | proved | Skilling's Hilbert transform | each bit-level step has an inverse; composition; bit counting |
| C16 | proved | memory pool | invariant by induction over operations |
| C17 | partial | reference-counted array handles | invariant by induction over programs |
| C18 | partial | futures of non-blocking exchanges | transition system |
| C19 | partial | `bcast`, `bcast_string` | all ranks as a list |
| C20 | proved | all of `Dist` | refinement to a relation on (rank, index) |
| C21 | partial | `update_ownership`, `globals_from_owners` | refinement to choosing functions on copies |
| C22 | proved | `migrate_mesh` | dimension by dimension; global numbers as identities |
| C23 | partial | `ghost_mesh`, `partition_by_verts`, `set_parting` | closure operators on sets of elements |
| C24 | proved | `bi_partition`, `recursively_bisect` | induction over halvings |
| C25 | proved | `find_indset` | invariant and progress measure; greedy choice is the unique fixed point |
| C26 | proved | finite automata operations, regular expressions | language semantics; path decomposition |
| C27 | proved | determinisation and simplification | subset construction as bisimulation; partition refinement |
| C28 | partial | `Reader` tokens | refinement to longest match |
| C29 | proved | FIRST sets | least fixed point, any order of the queue |
| C30 | proved | LR(0) machine, tables, driver | stack invariant; viable prefixes |
| C31 | partial | indentation tokens | refinement to block structure of lines |
| C32 | partial | binary mesh files and directories | encode/decode round trip |
| C33 | proved | tag scanner | printer/scanner round trip over all texts |
| C34 | proved | swap tables | independent definition of triangulation, all of them enumerated |
| C35 | partial | `find_loop` | permutation of a closed fan; invariant of the selection |
| C36 | proved | `refine_products` | chains; array layout on every schedule |
| C37 | proved | `coarsen_topology`, `mark_dead_ents`, `find_coarsen_domains` | set of domains; arrays in order |
| C38 | proved | `swap2d_topology` | boundary chains |
| C39 | proved | `modify_ents` numbering | interval partition of the scan |
| C40 | proved | box meshes and their classification | index arithmetic; ordered field |
| C41 | partial | AMR templates, 2:1 rule, topology | tables; race witness; closure operator |
| C42 | proved | `unmap_mesh` | induction over dimensions |
| C43 | proved | array helpers | elementwise lemma; associativity |
| C44 | partial | allocation ledger | state machine, heap with freed blocks |
| C45 | proved | NBX protocol | transition-system invariants, termination measure |
| C46 | proved | `any` | state machine against value semantics |
| C47 | partial | `coalesce` | witness for every input |
| C48 | proved | `swap3d_topology` | tables lifted to arbitrary labels; chains |
| C49 | proved | `Mesh::balance` | composition of C20, C22, C24 |
| C50 | partial | `ask_children`, `unmap_parents`, `unmap_leaves` | refinement to the parent relation |
| C51 | partial | `write_vtu`, `read_vtu` | encode/decode round trip over a mesh with tags |
| C52 | partial | `Writer`, `.pvd` files | byte-level file with in-place patch, crash at any byte |
| C53 | partial | `ExprReader`, environment and functions | pointwise semantics; induction over programs |
| C54 | proved | `ExprOpsReader` and operations | two interpreters, simulation |
| C55 | partial | the splitting of quadrilaterals and hexahedra with its tables, rotations, flips and both passes of array kernels; the symmetric variants with their coordinates | tables checked by the kernel for all corners and diagonals and lifted to all numberings by renaming; oriented boundaries as formal sums; array layout by the block lemmas; boxes by composition with C40 |
| C56 | proved | the chain of filters of a coarsening pass on all ranks: marks, classification, exposure of sides, overshooting edges, qualities, improvement, the choice of a rail and finding it again | each kernel computes a code per candidate characterised bit by bit; an invariant says which directions remain after each filter, and synchronisation with the owner keeps it; the choice is a fold characterised by a lexicographic order |
| C57 | partial | the transfer rules of refinement, coarsening, swapping and copying as loops over the old fields with their kernels; measures, metrics at midpoints and the conservation step are parameters | each rule is characterised by the fields it takes and the values of products it gives; running a list of rules leaves for each field the last rule that takes it; kernels by the block and scatter lemmas for every schedule |
| C58 | partial | the arrays and graphs of the cavities, their separation by boundary status and by material with its loop, the introduction, carrying and spreading of errors, the flags of the operations; densities before and after are given | graphs and tables are described by their rows; separation terminates because the first colour of every row goes away; what is spread over a cavity sums to what was there; three statuses partition the keys; histories by induction; a concrete history of three modifications of a square refutes the claim for densities |
| C59 | partial | the graph of elements across interior sides with its two kernels, rounds of diffusion and their loop, the weighted diffusion of every component, the correction of densities and of velocities; one rank, the tags around it not modelled | the graph is shown to list neighbours, so that exchanges cancel by counting sides from both ends; a round is a weighted mean, which bounds values and shrinks their spread by a factor, from which the end of the rounds follows in an Archimedean field; the momentum of elements is counted by vertices |
| C60 | partial | the choice of a configuration with its caches and early exits, the kernels for tets and triangles, the filter by improvement and both ghosted functions up to the independent set, on all ranks; quality and length are parameters | the caches always hold the measure at their index, an invariant over triangles, edges and configurations; the fold over configurations keeps the first best one; the products are those of C35 and C38; synchronisation with owners as in C56 |
| C61 | partial | the projection kernel with its state machine, the relaxed variant, the tags with their defaults and the rounds over all dimensions on all ranks | an invariant over the entities listed so far: either all those of lowest dimension agree, and they are counted, or the state is one below; rounds by induction on the dimension; synchronisation with owners; the class is a function of the multiset of classes around |
| C62 | proved | the marking kernels, the reduction of marks to owners and their synchronisation, the lookup of model entities by sorting and binary search, the loop over dimensions, on all ranks | an entity is identified with the copy that owns it; marks say a set of entities; each function maps the set said to the set said by the result; reductions through the exchange theorem of C20; binary search by induction on the interval |
| C63 | partial | the graph of elements across sides, the rounds of marks through it with synchronisation, the check on the largest mark, the candidates for swapping, on all ranks | marks after k rounds are described by walks of exactly k steps, by induction on the rounds; symmetric adjacency gives the elements nearer by an even number; parity on a strip of triangles refutes the rest |
| C64 | partial | the comparison of integers and reals with its tolerances and the search for the worst difference, the move of data to the linear partition, the comparison of tags and of connectivity by dimension, on all ranks; what is printed is left out | a mesh without ranks is the specification; moving data to the linear partition is shown to give an array that depends on the global numbers only, by the exchange theorems C20 and C21 and the bijection C07; the rest is logic over dimensions and tags by induction |
| C65 | proved | the counts per representative, their scan on the linear partition, the new global numbers of what stays and of products, the owners of new entities and the owners of elements around keys, on all ranks; the order of keys at a representative; shared products of a refined forest are left out | the change of the whole mesh without ranks is the specification and fixes the new number of every entity; counts on the ranks add up to its counts, so the scan of C21 gives its sums; that the numbers are 0 to n-1 each once is shown for the specification alone; owners by C20 and C42 |
| C66 | partial | counting of marks with its 32-bit sum, the number of entities, histograms, statistics against goals, smallest and largest values, the status of adaptation and the average quality, on all ranks | what the ranks keep is a permutation of the entities of the whole mesh, because each has exactly one owned copy; sums by associativity and commutativity; thresholds through minima and maxima; every value is in one bin by telescoping over the bounds; two ranks with 2^30 elements each refute the 64-bit count |
| C67 | partial | the tags that are moved and those that are cached, with their invalidation, the checks of limits on all ranks, both loops of halving; how quality, length and the logarithm of a metric are computed is a parameter | a mesh without ranks says what every rank has; every function keeps this relation, caches included; the loops by induction on the steps left, with the part moved and the part remaining as invariant; a line of two elements refutes the limits after a stall, an empty rank refutes that the mesh is moved at all |
| C68 | proved | the sorting of served entities by rank, canonical vertices and servers on each rank, matching on the server, the way back, and the derivation of entities of one dimension with owners and global numbers, for more than one rank; the elements themselves and the connectivity between dimensions are C12 and C21 | the rounds of the sort give a permutation ordered by rank; canonical lists are equal exactly for the same polygon, so the first match depends on the polygon only; servers through the linear partition C07; exchanges by C20; numbers by C21 |
| C69 | proved | the tree of frames with its links and its string table, begin and end of regions, the iterator, depths, the simple and the sorted report and the inversion; the text format is not modelled | an invariant says that the links agree with the parents and that siblings have different names; a frame is found by its path and created once; open regions are the chain from the current frame; the iterator by induction over the tree; the inversion by paths, with the queue as a permutation of the frames |
| C70 | partial | the rows of the roots of the inverted tree, the message of names and times, its splitting, and the sums on rank 0; rows are kept in order of creation instead of sorted by name | the message round-trips for names without byte 0; the sums by induction over the messages; two ranks with different regions refute the collection |
| C71 | partial | argc and argv as a memory longer than the line, the shifting of words, flags with their arguments, the loop over the words with the loop over the flags inside, the final parse and the look-ups; values are kept as words, messages are not modelled | the state of the parser is a function of the items read so far; every reading of the line begins with these items; induction over the flags and over the words; a line that ends with a value named like a later flag refutes it |
| C72 | proved | the kernel that predicts the quality of splitting an edge, the metrics at midpoints and the selection of the edges that may be split, on one rank; points, metrics and the quality of an element are parameters | for every cell, code and end the predicted vertices are those of the made cell before renumbering, by a table of the templates; the layout of the made cells is that of C36; minimum by induction over the cells |
| C73 | proved | no new code: the judging of collapses of C56 and the construction of C37 are put together, on one rank | the arrays that C56 reads are those C37 reads; the elements made are the ones judged because a made element is around a collapsed vertex and without its target; the edges found again by their global numbers are those that were judged |
| C74 | partial | the vectors of tags of a mesh with their checks, the dropping of derived data, and the asking for lengths, qualities and sizes with an arbitrary way of measuring | each call refines an update of a map from dimension and name to data; induction over the history with the invariant that what is stored under the derived names is what measuring now gives, which depends only on the data of vertices that drop it |
| C75 | partial | the loops of the driver with the passes as parameters (they are modelled on their own in C36 to C38, C56, C60, C72 and C73); not ending is an outcome of its own | induction over the turns: a result is a path of passes, and the last turn did nothing, so each pass has nothing to do on one and the same mesh; a decreasing number bounds the turns |
| C76 | partial | vectors and column-first matrices over a field, the loops as folds, every formula entry by entry | folds are sums, so products associate in any dimension; the formulas are polynomial identities modulo the hypotheses, with the coefficients given; boxes by induction over the points |
| C77 | proved | the functions of one simplex on its corners, with sides and edges taken from the tables of the simplex templates | sizes written out are polynomial identities; weights are solved for through the inverse of C76, so they exist and are unique; side distances are sizes of the simplex with one corner moved, which ties inside, sides and coordinates together |
| C78 | partial | the points of all ranks as one list with masses, the loop of the bisection round by round, the seven axes, and the sums for centre and matrix | the mass beyond a plane never grows as the plane moves along, so the half always stays in the bracket, which is halved every round; the quadratic form of the matrix by induction over the points; the least eigenvalue bounds the form since orthonormal columns span |
| C79 | partial | paths as lists of characters with the search for the last separator or period; the mode as a number with the tests bit by bit; a directory as the entries left to be read, with links to directories elsewhere | the last position splits the list into a prefix and a suffix without the character; the tests depend only on the bits of the mask, which leaves a finite table; induction over the directory |
| C80 | partial | clamping and intersecting in three dimensions over the matrices of C76, with the eigendecomposition and the square root as parameters; the degenerate case in two dimensions with the determinant tested before the inversion | in the basis of eigenvectors every metric is a weighted sum of squares, so matrices are compared weight by weight; in the plane the directions of degeneracy are a basis |
| C81 | partial | the checks, the rounds with their common scalar and the limit of hundred rounds, with what is done to the metrics of all vertices as parameters; the choice of the steps from a tag | induction over the rounds and over the sources; the steps are run on a small specification of where data live and how often they were differentiated |
| C82 | partial | the projection of a corner onto the line or plane of the opposite side, with squares of distances in place of distances and division by zero as no result; the loops over the corners | completing the square along the line; a basis of edges and normal for the plane; the coordinates of the foot are unique (C77); induction over the corners |
| C83 | proved | the quality of a triangle in the plane, with the square root and the size of the equilateral triangle as parameters | the square of the mean length minus the square of the size is a sum of squares that vanish only for equal edges |
| C84 | proved | one process and one component, with a value that is not a number as a value of its own and a bound on the number of rounds | induction over the rounds with what every round keeps; the average of numbers in a range is in the range |

### What each result covers

* **C01 Offset scans are exact prefix sums for every thread count** (proved). For up to 512 threads; above that the code overflows its table of partial totals (C01_too_many_threads_refuted).
* **C02 sort_by_keys returns the stable lexicographic ordering permutation** (proved). sort_by_keys for every width; the sort is std::stable_sort's contract, realised by an insertion sort. sort_small_range (counting by repeated minima) included.
* **C03 Mark/collect/inject primitives are mutually inverse** (proved). Marks are 0/1 arrays. For other values collect_marked writes wrong places (C03_collect_marked_nonbinary_refuted).
* **C04 Inverting a many-to-one map yields exactly the preimages under every schedule** (proved). Both algorithms. Atomics: every order of the increments, of the fetch-adds and of the stores.
* **C05 Gather/scatter through index maps obeys the copy laws for every width and schedule** (proved). Scatter theorems need an injective map; for a non-injective map the result depends on the schedule (C05_map_into_noninjective_refuted).
* **C06 Fan operations (degrees, inversion, segmented reduction) are exact** (proved). fan_reduce with SumFunctor<I8> wraps for fans of more than 127 marks (C06_fan_sum_i8_overflow_refuted).
* **C07 Linear partitioning of global numbers is a bijection onto (rank, index) pairs** (proved). Bijection proved for shares that fit 32 bits, as the code's casts require. Globals at or above the total divide by zero when there are fewer items than ranks (C07_out_of_range_refuted).
* **C08 suggest_slices tiles the global range exactly** (proved). Slices tile the range for every total and size; agreement with the linear partition for shares that fit 32 bits.
* **C09 Alignment codes act as the dihedral group** (proved). Degrees 2, 3, 4. The run-time compound_alignments rejects quadrilaterals (C09_compound_quads_refuted); inverse codes need a rotation below the degree.
* **C10 Simplex and hypercube downward/upward template tables are mutually consistent** (proved). Finite tables, checked in full by the kernel; the tables are transcribed by script from the headers.
* **C11 Adjacency inversion keeps exactly the incidences, with correct local positions** (proved). invert_adj refines the incidence relation for every schedule, with and without codes, degrees 1..16 (the library's largest is 12). The theorem's row order is by high entity; among repeated uses by one high entity the order depends on the schedule (C11_order_of_repeats_refuted shows it, such meshes are degenerate). C11_degree_limit_refuted: which_down overflows its 5 signed bits for degree 17.
* **C12 Deriving intermediate entities finds every distinct side once and aligns it correctly** (proved). find_unique, form_uses, find_matches and reflect_down for all families and the dimension pairs (2,1), (3,1), (3,2), every schedule. Non-degenerate elements: distinct vertices. C12_derive composes the two steps.
* **C13 The reproducible sum is independent of summation order and partition** (proved). Exact fixed-point sum for every thread team and rank distribution, up to 2^74 values; independence of order and partition; accuracy bound; to_double terminates; refutations at the extreme ends of Int128 and for arrays of tiny subnormals.
* **C14 Base64 encoding round-trips every byte string; decoding never misreads foreign characters** (partial). Encoding is proved to be RFC 4648 base64 and the round trip exact; the clause that malformed text is rejected is refuted: characters above 127 index outside the table when char is signed, trailing foreign characters are ignored and '=' is accepted anywhere.
* **C15 The Hilbert spatial ordering visits every cell exactly once, and is invertible** (proved). Transforms are mutually inverse for every dimension and 1..64 bits; keys are a bijection onto 0..2^(b*n)-1 for 1..63 bits (the library uses 52). Conversion of doubles to grid coordinates is not modelled.
* **C16 The memory pool never hands out the same block twice and accounts for all bytes** (proved). All histories of pool requests below 2^63 bytes. C16_huge_request_refuted records the limit: a request above 2^63 bytes shifts by 64 or more in the size class search, which is undefined; no allocator can serve such a request.
* **C17 Array handles free their storage exactly when the last handle goes away** (partial). Proved for programs that neither assign a handle to itself, nor move a handle inside a parallel region; self-assignment and self-move assignment use freed storage, and a move in a parallel region leaks (refutations). identity through a parallel copy is refuted: the copy is not a counted handle.
* **C18 Polling a future reports completion only when the communication is complete** (partial). The statement is refuted: the poll answer is exactly inverted. Proved: what get() delivers when no poll happens before completion, that a polling loop started after completion never ends, and that a second get() fails.
* **C19 Broadcast delivers the root's value to every rank for every root** (partial). Broadcast of values is proved for every root. The string clause is refuted for roots other than rank 0: the length is always rank 0's. Proved: the exact result for every root, and correctness when the root is rank 0 or the lengths agree (below 2^31).
* **C20 Communication patterns deliver each item to its destination, and inversion reverses them** (proved). All of Dist: constructor, set_dest_ranks, set_dest_idxs, set_dest_globals, invert, exch, exch_reduce, items2dests and create_dist_for_variable_sized, for any number of ranks below 2^31, any schedules, widths and data. Trusted: MPI delivers the messages between two ranks in order; the sources of a graph communicator are those of C45 (C20_sources). Width 0 aborts (checked by an example), so widths are positive. change_comm and iexch's callbacks are not modelled.
* **C21 Ownership is a consistent choice: one owner copy per global entity** (partial). Proved for every number of ranks, distribution and schedule: without suggestions (C21_update, C21_from_globals) and with agreed, available suggestions (C21_update_suggested, C21_from_globals_suggested); numbering from owners (C21_globals, C21_globals_dense). The clause that an unavailable suggestion falls back to the rank with fewest copies is false: the code keeps the rank with index -1 (C21_suggestion_refuted). Assumes fewer than 2^31 ranks and items per rank.
* **C22 Migration keeps exactly one copy of each needed entity per rank and preserves connectivity** (proved). For a mesh of any dimension on any number of ranks and any plan that names for every new element the old element it copies, migrate_mesh succeeds under every schedule: each rank gets exactly the lower entities its elements use, each once and ordered by global number (UsedOnce), connections are the old ones (ConnOk, and through global numbers C22_global_connectivity), codes and tags are carried, owners are consistent or keep the old owners' ranks. Class sets, coordinates and parametric data are tags here; the values of tags are integers.
* **C23 Ghosting with k layers gives exactly the elements within k vertex-adjacency layers** (partial). Proved for one layer of any elements and any number of layers of simplices (C23_ghost_partial), for partitioning by vertices and by elements, and for the state machine of set_parting. Refuted for two or more new layers of hypercubes: close_down assumes dim+1 vertices per element and the size check in expand aborts (C23_hypercubes_refuted).
* **C24 Recursive bisection assigns every element to exactly one rank with the requested split** (proved). bi_partition and recursively_bisect for all marks, numbers of ranks and schedules; the choice of the marks is any function. Sums over ranks are exact, and the total number of rows is below 2^31-1.
* **C25 The independent set is independent, maximal, and always found** (proved). C25_find: on every number of ranks, for every distributed symmetric graph with agreeing copies, all schedules and qualities in any linear order, the loop ends within as many rounds as there are copies, all copies of an entity agree, and the result is the greedy choice from the top down; C25_independent: hence independent, maximal, candidates only; C25_partition_independent: two distributions of the same graph choose the same global numbers. Side results: C25_nan_never_ends and C25_tie_never_ends prove that the loop never ends on two adjacent candidates with NaN qualities, or with equal qualities and equal globals (both excluded by the statement). Doubles without NaN are a linear order once +0 and -0 are identified, as != does.
* **C26 Compiled regular expressions accept exactly the language they denote** (proved). Operations on automata (set, range, unite, concat, plus, maybe, star) accept exactly the languages they denote, for automata whose accepting states have no transitions, a class all operations keep (maybe is wrong outside it: C26_maybe_transitions); C26_regex composes them over parse trees of regular expressions. A positive set that spans characters that are not readable stops the program (C26_unreadable_range). Determinisation and simplification are C27.
* **C27 Determinisation and simplification preserve recognised tokens** (proved). C27_deterministic (lowest token, termination bound 2^nstates) for all well-formed automata with at least one symbol, C27_simplify (tokens preserved, no more states, no two equal states left), composed into C27_regex (the automaton of an expression) and C27_lexer (first matching token of a language).
* **C28 The reader tokenizes by longest match** (partial). C28_tokens states exactly what the reader does: for every deterministic automaton and text it ends, and it passes on the longest-match tokens iff the text is not empty, has such a cut, and the automaton stops before the end of the text at every token but the last. C28_sound: the tokens it passes on are always the longest-match ones. The statement is false in two cases. C28_split_refuted: with tokens a, b, abc the text ab has a cut and the reader fails. C28_empty_refuted: the empty text always fails, and the first use of a reader reads an uninitialised member. C28_split_partial: the statement holds for nonempty texts if every nonempty text that the automaton can read has a token. Putting characters back into the stream (unget) is taken to work.
* **C29 FIRST sets used by the parser generator are exactly the derivable first terminals** (proved). For grammars whose left-hand sides are nonterminals and whose symbols are in range; other grammars are rejected by the code's own checks, except that a production of a terminal that nothing depends on passes. A string derived from a symbol may still hold nonterminals; C29_productive states the same for strings of terminals in grammars without useless nonterminals. The order of the queue is arbitrary (the code takes the first event).
* **C30 A successful parse is a derivation of the grammar** (proved). The LR(0) machine is built for every grammar with an accepting production (C30_built). For tables built from it with arbitrary look-ahead sets: a text that is read has the reductions of a rightmost derivation from the goal, backwards, and the calls of the callbacks form a parse tree, each with one value per symbol (C30_derivation); no check fails and nothing is undefined (C30_safe). With look-ahead sets that miss nothing the texts read are exactly those derivable (C30_language), each with one derivation (C30_unambiguous). compute_context_set is not modelled: the sets are a parameter.
* **C31 Indentation tokens are balanced** (partial). Refuted as stated: the end of a text closes no block (C31_refuted: a grammar in which an unclosed INDENT is read successfully). Proved for every text: the delivered INDENT/DEDENT tokens are exactly the block structure of the lines (C31_layout), delivery succeeds exactly if tabs and spaces are not mixed (C31_consistent), the depth never becomes negative and ends as the number of open blocks (C31_nesting); every block is closed if the last line is not indented (C31_unindented_partial) or if every production of the language is balanced (C31_grammar_partial). Further defects: C31_mixed_refuted (a failed check instead of the exception), C31_empty_refuted (undefined behaviour on an empty reduction before any symbol).
* **C32 Mesh files round-trip** (partial). Refuted in clauses: an empty class set is dropped (C32_refuted), writing a tag that has no array is undefined (C32_array_refuted), and a tag that got more than 127 components by being replaced is written but refused when read (C32_comps_refuted). Otherwise proved for all meshes within the format's limits, with or without compression (zlib is a parameter that recovers what it compressed), writer and reader of either endianness: C32_values, C32_endian (same bytes), C32_writes, C32_roundtrip_partial, and for directories written by n ranks in any order C32_directory_partial (strict mode, as many ranks). C32_truncated: every proper prefix of a file is read with undefined behaviour, never refused. C32_other_rank: a part is refused by other ranks and by runs with another number of ranks.
* **C33 XML tag scanner recovers element name, attributes and tag type** (proved). For every tag text (type, name without blank, '/' and '>', any attributes in either kind of quotes, blanks where allowed, any rest of the line) the scan returns type, name and, for every attribute name, the last value given; a self-closing tag has an attribute or a blank before its '/', as all tags of the VTK writer do. Lines not starting with '<' and lines without '>' are rejected. Side result C33_bare_refuted: <Foo/> is reported as a start tag, </Foo /> as self-closing.
* **C34 Edge-swap tables enumerate valid triangulations of the loop polygon** (proved). All tables for loops of 3 to 7 vertices, checked against an independent definition of triangulation; all triangulations are listed exactly once.
* **C35 The loop around an edge is found as a closed oriented cycle** (partial). Closed fans in any storage order and numbering give the loop in curl order; no out-of-bounds read. The clause that other inputs stop with an error is refuted: an open fan stored in chain order is accepted.
* **C36 Refinement templates split each simplex into two with the same boundary and orientation** (proved). C36_split_domain: for a triangle or tet with the split edge at any local position and rotation, any distinct vertex labels, the two halves are the entity with one endpoint replaced by the new vertex, equally oriented, with the subdivided boundary, and every face of a half is the cut or a (subdivided) side. C36_new_cells/triangles/edges: the arrays refine_products builds for all keys list exactly these halves and cuts, key by key, on every schedule; edges give [a,m],[m,b].
* **C37 Collapse keeps orientation and deletes exactly the entities that degenerate or merge** (proved). C37_dead_marks: an entity of dimension 1..3 is marked dead iff it contains both ends of a collapsing edge, or is a side without the target of such an entity. C37_live_domains: the domains of a key are exactly its live adjacent entities in mesh order. C37_products/C37_collapse: the whole pipeline gives, key by key, each surviving entity with the target in the collapsing vertex's local position, in the new numbering, and no product has a repeated vertex; C37_verts_onto: the target is the other end of the rail. All on every schedule. Adjacency arrays the mesh is asked for are hypotheses (Spec.RailMesh).
* **C38 The 2D edge swap replaces two triangles by two with the same boundary** (proved). C38_swap_edge: for an edge in two consistently oriented triangles, any local numbering and list order, the new edge joins the opposite vertices and the new triangles have the old oriented boundary. C38_swap_arrays: layout over all keys on every schedule. If the two triangles lie on the same side (inconsistent orientation) the fill value -42 is stored as a vertex (example in C38.lean).
* **C39 Renumbering after modification is a bijection onto the new entity range** (proved). modify_ents up to the local numbers and modify_ents_adapt (mark_image, mark_up, collect_marked, collect_same, get_mods2reps, get_rep_counts with atomic additions in any order, get_rep2md_order, assign_new_numbering). C39_numbering: for any set of modified entities with products in several dimensions, under every schedule, the numbers of kept entities and products are a permutation of 0..nnew-1, kept entities keep their order, products of one modified entity are consecutive and lie between the kept entities around its representative, and old2new is right. C39_adapt: the same for one key dimension (edge splits, collapses, swaps), with the mesh conditions stated on adjacencies and with what stays characterised as what touches no key. Condition: no entity touches two keys (keys are an independent set); C39_shared_representative shows the numbers collide otherwise. Not modelled: modify_conn, modify_owners and modify_globals (distributed numbers).
* **C40 Generated box meshes are conforming grids** (proved). make_1d/2d/3d_box connectivity and coordinates for all sizes and loop orders: ConformingGrid (every vertex used, cells, opposite orientation of shared sides, exactly the sides inside the box shared). classify_box_dim and average_field over an ordered field, with C40_rounding showing that errors up to 1/2000 of a cell cannot change the result. get_box_class_sets against the list of named parts. 32-bit overflow for huge boxes is not modelled. Splitting into simplices is not part of this property.
* **C41 AMR marking and child codes** (partial). Refuted as stated: C41_2to1_refuted shows a valid three-level mesh on which enforce_2to1_refine misses a leaf that must be divided under the serial schedule, finds it under the reversed one, and marks unneeded leaves when the uninitialised array it reads contains nonzero bytes. C41_2to1_partial: what holds in every execution. C41_2to1_zeroed: with a zeroed array only required leaves are marked. C41_2to1_settled: the exact, schedule-independent result when one pass suffices. C41_codes, C41_children_tile, C41_children_inner and C41_topology prove the remaining clauses completely.
* **C42 Extracting a sub-mesh keeps connectivity, tags and ownership consistent** (proved). C42_unmap_mesh (connectivity, codes, tags and new indices of every dimension, by induction over the dimensions), C42_closed (no index is lost when the kept lists are closed under taking sides), C42_owners (owners point at the new copies of the old owners, or -1). Every dimension must have its list of kept entities. The checks inside set_ents are not modelled.
* **C43 Array arithmetic helpers are exact, elementwise and total on documented inputs** (proved). Every elementwise helper, reductions over every division into threads, interleave/get_component inverse both ways, find_last, is_sorted.
* **C44 The allocation ledger reflects exactly the live allocations** (partial). Byte total and high-water mark are proved for every history in which the ledger's list is not corrupted. The listing clause is refuted (three allocations list two), and a history of two allocations, a free and an allocation writes to freed memory. C44_listing_is_first_and_last states what is listed instead.
* **C45 The non-blocking exchange terminates with every message delivered** (proved). Every schedule of the MPI calls. Trusted: MPI semantics of synchronous sends, probes and the non-blocking barrier, as stated in Model/Nbx.lean.
* **C46 The type-erased value container owns its payload like a value** (proved). All programs over any number of variables, small and large payload types. Payload constructors that throw are not modelled; swapping a payload with itself is assumed to leave it alone.
* **C47 Coalescing arrays concatenates them** (partial). Refuted: for every nonempty list of arrays the offset loop reads past the end of the list (C47_coalesce_refuted). Only the empty case holds.
* **C48 Swapping an edge in 3D keeps the outer surface** (proved). Over all loop sizes the code supports; table check lifted to arbitrary vertex names. LO offsets are natural numbers (no overflow).
* **C49 Rebalancing puts every element where the partitioner sent it, ordered by global number** (proved). balance on more than one rank after set_parting(ELEM_BASED); the geometric choice of marks is any function. C49_plan_order_needed shows that set_dest_globals on a pattern that already permutes its items sorts only if the items are numbered by ascending rank, which bisection ensures.
* **C50 Parents and children of an adapted mesh stay consistent** (partial). C50_children_partial: ask_children is exact when every entity whose code names the dimension has a parent. C50_vertex_children_refuted: the children of vertices are undefined as soon as some entity has no parent (index -1, code 0 names dimension 0). C50_unmap_parents_partial: parents of edges and up are kept. C50_vertex_parents_refuted: unmap_mesh loses the parents of vertices, since its loop starts at dimension 1. C50_leaves: leaves are exact. The cache of children in Mesh is not modelled.
* **C51 A mesh written to a VTK file is read back** (partial). C51_roundtrip_partial: for every mesh within the stated limits, every writer and reader byte order, char signedness, compression and schedule, writing succeeds and reading gives the same cells, coordinates, globals and tags. The unrestricted property is false of the code: 6-component real tags in 2D lose half their values (C51_six_refuted), quotes in names make the file unreadable (C51_quote_refuted), tags named local/owner vanish (C51_special_refuted), 1D hypercubes become simplices (C51_line_refuted), cell tags are attached to the wrong cells when vertices are not sorted by global number (C51_unsorted_refuted), a serial mesh without cells cannot be read (C51_empty_refuted). C51_reordered: the reordering of unsorted vertices itself keeps cells and tags consistent. Not modelled: entities between vertices and cells and the owners derived on reading (see C21), the pvtu index.
* **C52 The list of time steps survives restarts and crashes** (partial). C52_history: after any history of sessions, with the last write of each cut short after any number of bytes, the list is readable and holds exactly the steps it should (proved outright, for any printing of times that can be read back). C52_data_partial: listed steps have the data of their times if no step that is still listed is written again; C52_numbers says which numbers writes get; C52_one_writer: a single writer that numbers its steps meets this. Refuted in general: a writer numbers from 0 after a restart, so a listed step gets the data of another time (C52_restart_refuted); a write without a number after one with a number overwrites that step (C52_explicit_refuted); a crash while the constructor rewrites the file loses every step (C52_reopen_refuted).
* **C53 An expression means the same at every point** (partial). Proved for every program over n>0 points in 1-3 dimensions, any mixture of constants and arrays and any schedule, in an arbitrary arithmetic with -x = x*(-1) and commutative products: C53_pointwise_partial (value computed, and right), C53_sound_partial (also for choices between vectors/matrices and computed indices: if a value is computed it is the right one), C53_builtins/C53_initial/C53_register give the environment. Missing because false of the code, each with a witness: m(i,j) off the diagonal (second index read from the first argument), constant condition with vector branches aborts, computed indices abort, array division by zero aborts, and a choice per point aborts on a rank without points.
* **C54 Compiled expressions agree with direct evaluation** (proved). For all programs, environments (also with arbitrary user functions) and schedules. The two ways may fail differently (C54_failures_differ).
* **C55 Splitting quadrilaterals and hexahedra into simplices gives a valid mesh** (partial). The full claim is false (C55_hexes_refuted): hex_bur_ring is not the ring of a rotation. C55_hexes_partial decides exactly which hexahedra are split properly (those that are Upright). Quadrilaterals, the symmetric variants, the array layout, agreement of neighbours and generated boxes are proved in full. Coordinates are exact in a field.
* **C56 Which edge collapses are accepted and which one is chosen** (proved). C56_offered and C56_class treat the marks and the classification, C56_candidates the whole pass on all ranks up to the choice of an edge for every vertex, C56_rails the way back from global numbers to edges. Lengths and qualities are abstract functions of the vertices into a linear order. The optional check that collapses do not flip elements (off by default) and meshes of dimension one are not modelled.
* **C57 Adaptation carries every field over** (partial). C57_refine_partial covers refinement on every dimension, C57_coarsen_partial and C57_coarsen_verts coarsening, C57_swap_partial and C57_copy swapping, for every schedule and every list of fields; fields that the conservation functions rewrite (named in 'changed') are excluded here. What is false of the code: on meshes of dimension 1 a pointwise field disappears on coarsening (C57_pointwise_1d_refuted), and a field named 'magnetic face flux' that is not a scalar of reals makes the transfer fail (C57_face_flux_refuted, so FluxOk is assumed). Missing: user-defined transfers; geometry is a parameter.
* **C58 What adaptation fails to conserve is recorded** (partial). Proved: for every sound modification and any flags, schedules and number of components the errors can be computed and the integral minus the errors is unchanged in every set of materials, provided there is no error where the flags say that conservation always holds (C58_step); hence for momenta, whose flags never say so, through every history (C58_momentum, C58_momentum_total). For densities it holds as long as no error sits around keys inside the model (C58_density_partial) and is false otherwise: C58_density_refuted gives a collapse and two splits of a square of area 18 after which 5/9 is unaccounted for. Assumed: at most 127 elements per cavity, the cavities partition what is not kept, kept elements keep size, material and density, cavities of keys inside the model have one material, boundary cavities have the same materials before and after, and where an operation claims to conserve this time it does. Densities before and after are given, not computed by intersection; exact arithmetic; one rank; the keys2doms argument and the unused CLASS_BDRY_COLOR cavities are left out.
* **C59 Correcting the recorded errors restores the totals** (partial). Proved for one rank and exact arithmetic: what correction returns conserves in every closed part and respects the tolerance (C59_density_partial), momentum is restored where every element has a free vertex and fixed components stay (C59_momentum_partial), and the rounds end when the errors of every connected body that reaches the boundary are together less than its tolerance (C59_density_ends_partial, C59_momentum_ends_partial, over an Archimedean field). Refuted in general: with larger errors no number of rounds suffices although each round succeeds (C59_density_ends_refuted, C59_rounds_go_on), and errors of momentum are lost where all vertices are fixed (C59_momentum_refuted).
* **C60 Edges are swapped in the best allowed way and only for the better** (partial). Refuted for edges around which an element is inverted: C60_inverted_refuted (tets: no allowed configuration, yet picked with configuration -1) and C60_triangles_refuted (triangles, quality below -1). Proved for all other edges: C60_swap3d_partial, C60_swap2d_partial, for every schedule and distribution; C60_choice is the choice for one edge. Quality and length are parameters; the independent set that follows is C25.
* **C61 Classification is derived from what is around an entity** (partial). Refuted: C61_order_refuted, the derived class depends on the numbering where known and unknown numbers meet. C61_derived_partial covers all meshes, distributions and schedules; its rule for an entity is conditional on the entities around not mixing known and unknown numbers, the bounds on dimensions and the agreement of copies are unconditional. C61_relaxed: the relaxed variant has no such condition; C61_determined: the rule gives one class in any order.
* **C62 Marks follow incidence and classification on every copy** (proved). C62_down, C62_up and C62_up_all for marks on any dimensions, C62_closures and C62_entities for lists of model entities. Hypotheses (Spec.MarkWorld.Ok): copies of an entity agree on class and lower entities, owners own themselves, and in ghosted meshes owners have all upward entities. Not covered: the variants with graphs from nodes of a field.
* **C63 Improvement is tried on the layers around bad elements** (partial). An element with neighbours is offered exactly if a walk of exactly the given number of steps leads to a bad one, one without neighbours always; what is nearer by an even number of layers is offered. Missing because false: elements nearer by an odd number of layers (C63_layers_refuted, C63_bad_refuted), elements without neighbours (C63_lone_refuted), and a normal end if no bad element has a neighbour (C63_check_refuted). The graph of neighbours and the candidates for swapping are described completely.
* **C64 Comparing meshes finds every difference and nothing else** (partial). For tags that have the same type and number of components in both meshes and for tolerances that are not negative: the three answers, independence of the distribution and of schedules, symmetry. Refuted otherwise (abort, or a mesh differing from itself). Real numbers are exact; NaN is not modelled. The parser of exodiff command files is not modelled.
* **C65 Replacing entities numbers the new mesh alike on any partition** (proved). The places of keys at their representatives are hypotheses of the numbering theorem and are shown to be right on a rank that sees all keys of the representative (C65_places); that they are then kept through the move to an element-based partition is not modelled. Numbers of products per entity are below 2^31. Owners of shared products of modified entities that are not owned by one rank's elements (get_prod_owners_shared) are not modelled.
* **C66 Statistics take every entity once** (partial). All clauses are proved for meshes of fewer than 2^31 entities; the number of entities, the status and the average without that bound. C66_count_refuted shows that a count of 2^31 marked entities overflows. Real arithmetic is exact; the status assumes that the limits lie within the range of the type.
* **C67 Moving a mesh by steps keeps it within limits and loses nothing** (partial). Proved for meshes of which every rank has vertices, and for warps that do not stall or end the program when they do. C67_stall_refuted: after a stall that is tolerated the mesh is outside of the limits. C67_empty_refuted: with an empty rank the program ends. Quality, length and metric logarithm are parameters; arithmetic is exact; limits lie within the range of the type.
* **C68 Edges and faces of a partitioned mesh are the same on every partition** (proved). Global numbers of vertices are natural numbers, distinct on each rank; more than one rank and a rank count below 2^31, a share of the linear partition below 2^31. The elements' own owners (owners_from_globals) are C21.
* **C69 The profile of a run tells how often and how long each region was called from where** (proved). Times are exact. Names have no byte 0 (they are C strings). The inverted profile is right whatever the uninitialised members of the copied History hold.
* **C70 The table of top functions is right on all ranks** (partial). C70_gather holds on each rank. C70_collect_refuted: undefined behaviour if a rank has a region that rank 0 does not have. C70_collect_partial: the collection succeeds exactly if all names occur on rank 0, and then it is right.
* **C71 A command line is accepted exactly if it can be read as declared, and gives the values on it** (partial). Refuted for lines that end with a value of a flag that is the name of a flag declared later (C71_parse_refuted); C71_parse_partial and C71_final_partial say exactly which lines are accepted, what is answered and what stays on the line; C71_reading_unique says that a line has one reading. The conversion of words to numbers (atoi, atof) is not modelled: it accepts any word.
* **C72 An edge is split only if the elements this makes are good enough in the new mesh** (proved). C72_predicted: the predicted quality of a candidate is the least of 1 and the qualities of the cells made, for every set of candidates split together and every numbering. C72_initial: exactly the marked edges that may be split are offered. C72_made: every cell made from offered edges has the allowed quality. Dimensions 2 and 3 (in 1D the code does not compute element qualities here); one rank; the quality of an element, the midpoint of points and the average of metrics are arbitrary functions; that the new mesh carries points and metrics this way is a hypothesis (see C57). Qualities are numbers: with NaN the prediction is 1 (C72_nan_accepted).
* **C73 A vertex is collapsed only if the elements and edges this makes are good enough in the new mesh** (proved). On one rank: C73_pass goes from the output of coarsen_ghosted to the connectivity made by coarsen_topology. C73_elements says that the prediction is the smallest quality of what is made. That the chosen vertices are apart is what the independent set gives (C25). Several ranks: each collapse is judged on the rank that owns the edge (C56); that copies of a ghosted mesh measure alike is not modelled. Coordinates and metrics of vertices that stay do not change, which is the hypothesis about the new measures.
* **C74 Data attached to a mesh under a name are kept until overwritten or removed, and derived data are never stale** (partial). The store (C74_add, C74_set, C74_remove, C74_read, C74_last) is proved for all meshes and histories, with the exact conditions for success and for undefined behaviour. C74_positions_partial and C74_fresh_partial leave out what C74_position_refuted and C74_stale_refuted show to be false: the position one past the last, and derived data after the coordinates or metric were removed or written as internal. C74_components_refuted and C74_empty_refuted are further expectations that fail. Measuring is an arbitrary function of the arrays; the mesh's entities are fixed over a history.
* **C75 Adapting goes on until nothing more can be done, and declines exactly a mesh that is as desired** (partial). Proved: when it declines and fails (C75_declines), what holds when it ends (C75_adapted), what is kept (C75_keeps), and a condition for ending (C75_ends). The last sentence is refuted (C75_again_refuted), as is the comment that false is returned if nothing was modified (C75_unmodified_refuted). The passes are parameters that leave the mesh alone when they say they did nothing; that a real pass then only changes the distribution and stored derived data is not modelled here.
* **C76 Small matrices, rotations, affine maps and boxes do what they are called** (partial). The choice between a vector and its negative is refuted for vectors that end in zero; everything else is proved for all inputs, in exact arithmetic, with division by zero excluded.
* **C77 Sizes, normals, gradients and coordinates of triangles and tetrahedra fit together** (proved). All clauses in exact arithmetic. Triangles in the plane and tetrahedra; flat triangles and edges in spaces of any dimension for the coordinates. The implied metric of a tetrahedron needs the six by six solver, which is not modelled.
* **C78 The inertial bisection cuts the points by a plane that halves the mass** (partial). All clauses but the last, which is refuted: when no cut is good enough the last one is given, not the best. The eigen-decomposition is a parameter of C78_axis.
* **C79 Paths, kinds of files and the removal of directories** (partial). Refuted: the parent of a path without a separator, the kinds of devices, links and sockets, and that nothing outside is removed. Proved for all other paths, for regular files, directories and pipes, and for trees without links to directories.
* **C80 Clamping, choosing and intersecting metrics** (partial). Clamping, the choice by determinant and the intersection with a first metric that is nowhere degenerate are proved in three dimensions in exact arithmetic, given the eigendecompositions. In the plane the intersection of two degenerate metrics is proved to be their sum if the directions are at less than a right angle and not equal, and refuted otherwise. The degenerate case in three dimensions is not modelled.
* **C81 Generating metrics from sources** (partial). The bounds on the result, its relation to the sources, the refusals and the unlimited case are proved for all operations on metrics; convergence only if scaling has the effect expected of it. That unused lengths have no influence is refuted, and so is the use of data on elements. How a source's metrics are computed is not modelled.
* **C82 Distances between boundaries that are close to each other** (partial). One corner of a triangle is proved completely in any number of dimensions, and that the triangle's result comes from such a corner; that it is the least of several is refuted. For a corner of a tetrahedron the distance to the plane is proved, and the choice of corners only for a corner at the origin; elsewhere it is refuted. That the least of the corners of a tetrahedron is taken is proved. Two opposite edges close to each other are not modelled.
* **C83 Quality of triangles** (proved). Triangles in the plane, in exact arithmetic, with the size of the equilateral triangle exact; tetrahedra are not modelled.
* **C84 Smoothing values by averaging** (proved). One process, one component, exact arithmetic. That the averaging ends on a connected mesh is not claimed.

## 5. Defects of the code found while proving

Each is a theorem; where the property itself is affected its status is "partial".

| theorem | defect |
|----|----|
| `C01_too_many_threads_refuted` | more than 512 OpenMP threads overflow the table of partial totals |
| `C03_collect_marked_nonbinary_refuted` | marks other than 0/1 are summed as offsets |
| `C06_fan_sum_i8_overflow_refuted` | sums of `I8` over large fans wrap |
| `C07_out_of_range_refuted` | division by zero for globals beyond the total |
| `C09_compound_quads_refuted` | `compound_alignments` rejects quadrilaterals |
| `C13_add_refuted`, `C13_neg_refuted`, `C13_subnormal_refuted` | extreme `Int128` values and sums of tiny subnormals |
| `C14_signed_char_refuted`, `C14_trailing_refuted`, `C14_padding_inside_refuted` | malformed base64 is read out of bounds or accepted |
| `C16_huge_request_refuted` | shift by 64 for requests above 2^63 bytes |
| `C17_self_assignment_refuted`, `C17_self_move_refuted`, `C17_parallel_move_leak_refuted` | array handles assigned to themselves free their storage; moves in a parallel region leak |
| `C18_poll_refuted` | the poll of a future answers the opposite |
| `C19_bcast_string_refuted` | strings broadcast from a root other than 0 have the wrong length |
| `C21_suggestion_refuted` | an unavailable suggested owner gives index -1 |
| `C23_hypercubes_refuted` | two or more ghost layers of hypercubes abort |
| `C25_nan_never_ends`, `C25_tie_never_ends` | the independent set loop hangs on NaN or full ties |
| `C28_split_refuted`, `C28_empty_refuted` | the reader does not back up at the end of the text; the empty text fails and an uninitialised member is read |
| `C31_refuted`, `C31_mixed_refuted`, `C31_empty_refuted` | blocks open at the end of the text are not closed; mixed indentation aborts; empty reductions before any symbol are undefined |
| `C32_refuted`, `C32_array_refuted`, `C32_comps_refuted`, `C32_truncated` | empty class sets are dropped, tags without array are undefined, more than 127 components are written but refused; truncated files are read with undefined behaviour |
| `C33_bare_refuted` | `<Foo/>` is scanned as a start tag |
| `C35_open_fan_refuted` | open fans are accepted as loops |
| `C41_2to1_refuted` | the 2:1 rule reads an uninitialised array and depends on the schedule |
| `C43_divide_empty_refuted` | helpers divide by zero on empty arrays |
| `C44_listing_refuted`, `C44_use_after_free_refuted` | the allocation list loses entries and is written after free |
| `C47_coalesce_refuted` | `coalesce` reads past the end of its list |
| `C50_vertex_children_refuted`, `C50_vertex_parents_refuted` | children of vertices are undefined; parents of vertices are lost |
| `C51_*_refuted` | six-component tags in 2D, quotes in names, reserved names, 1D hypercubes, unsorted vertices and empty meshes do not survive VTK files |
| `C52_restart_refuted`, `C52_explicit_refuted`, `C52_reopen_refuted` | after a restart the step numbers start at 0 again; a write without a number overwrites the step of a preceding write with a number; a crash while reopening loses the list |
| `C53_component_refuted`, `C53_choice_refuted`, `C53_index_refuted`, `C53_division_refuted`, `C53_no_points_refuted` | `m(i,j)` ignores `j`; some choices, indices and divisions abort |
| `C55_hexes_refuted` | the ring of corners by which hexahedra are turned is not a rotation, so hexahedra whose second and third far sides are cut differently get inverted tetrahedra; boxes are not affected (`C55_box_hexes`) |
| `C57_pointwise_1d_refuted`, `C57_face_flux_refuted` | on meshes of dimension 1 a field with pointwise transfer silently disappears when the mesh is coarsened or swapped; a field called `magnetic face flux` with more than one component makes every refinement, coarsening and swap fail |
| `C58_density_refuted` | errors of densities are carried over with the cavities of `CLASS_COLOR` although the code and its comments call for `CLASS_BDRY_COLOR`, so splitting an edge next to the boundary moves part of the error to elements inside, where the next modification drops it |
| `C59_density_ends_refuted`, `C59_momentum_refuted` | correction never ends when the errors of a material together exceed the tolerance of what it holds: adaptation hangs; momentum errors of elements with all vertices fixed are silently dropped |
| `C60_inverted_refuted`, `C60_triangles_refuted` | the markers for 'no allowed arrangement', 0.0 and -1.0, are compared with the old quality, so an edge with an inverted element around it is picked although no arrangement is allowed: a tetrahedral swap then gets configuration -1, by which the topology step reads its tables before their start; a triangle swap makes the edge that is too long |
| `C61_order_refuted` | `finalize_classification` uses the strict variant, in which an unknown number (-1) among the entities around is overridden if it is listed first and a conflict if it is listed later: the end of a labelled curve next to unlabelled boundary edges becomes a corner or a point inside the curve depending on the numbers of the edges |
| `C63_layers_refuted`, `C63_bad_refuted`, `C63_lone_refuted`, `C63_check_refuted` | `mark_dual_layers` replaces marks by those of the neighbours and drops the element's own: with the default of 4 layers elements 1 or 3 layers from a sliver are left out unless a cycle of odd length is near, with an odd number of layers the sliver itself is; an element without neighbours is always marked (with -128); if no bad element has a neighbour, e.g. on a mesh of one element, `OMEGA_H_CHECK(get_max(...) == 1)` ends the program |
| `C64_types_refuted`, `C64_components_refuted`, `C64_tolerance_refuted` | `compare_meshes` does not compare the type or the number of components of tags: another type ends the program in `as<T>` even if the tag is not to be compared, another number of components in `map_into`; a negative tolerance makes a mesh differ from itself, and then the index -1 of a value that was not found is read |
| `C66_count_refuted` | `count_owned_marks` and the bins of `get_histogram` are 64 bits wide but summed in `promoted_t<I8>`, 32 bits, also across ranks: with 2^31 marked entities on two ranks the sum overflows, while `nglobal_ents` converts each rank's number first |
| `C67_stall_refuted`, `C67_empty_refuted` | `warp_to_limit` with `exit_on_stall` goes on with the coordinates of the last try, which violate the limits, instead of the ones it began with; `set_tag`, and so `set_coords`, divides by the number of vertices of the rank, so that on a partition in which a rank has no vertices every warp and every change of the metric ends the program |
| `C70_collect_refuted` | `sendrecv` on rank 0 uses `result[name][TOP_AVE]` for a name that only another rank has: the map makes an empty vector, and the access is outside of it; `print_top_sorted` is undefined whenever some rank ran a region that rank 0 did not run |
| `C71_parse_refuted` | the loop over the flags in `CmdLine::parse` goes on after a flag has taken the last words, and compares the later flags with the word left behind in `argv[argc]`: `prog -o -v`, with `-o` taking a name and `-v` declared after it, fails with "takes 0 arguments" and `argc` 0, although it works with the flags declared in the other order |
| `C72_nan_accepted` | `min2` keeps its first argument when the second is NaN, so an edge whose new elements have quality NaN, for example from a metric with a NaN, is predicted to be of quality 1 and may be split |
| `C74_position_refuted` | `Mesh::get_tag(ent_dim, i)` checks `i <= ntags` and not `i < ntags`, so the position one past the last tag is read past the end of the vector |
| `C74_add` | `Mesh::add_tag` looks the name up in `tags_[ent_dim]` before it checks the dimension, so a dimension outside 0 to 3 is undefined and not an error |
| `C74_components_refuted` | `Mesh::add_tag` checks the number of components only for a new name: replacing a tag can give it 128 or -1 components, which the file format stores in a byte |
| `C74_stale_refuted` | `Mesh::remove_tag` of coordinates or metric, and writing them as internal, leave the old lengths, qualities and sizes, which are then answered |
| `C74_empty_refuted` | `Mesh::set_tag` and so `Mesh::set_coords` end the program where there are no entities, for example on a rank whose part is empty, because the number of components is found by dividing by their number |
| `C75_again_refuted` | `adapt` does not look at lengths again after the passes for quality, so a mesh of the desired quality that was just adapted may have edges to refine |
| `C75_unmodified_refuted` | `adapt` is said to return false if the mesh was not modified; it returns true also if the mesh is not as desired and no pass could do anything, so that `while (adapt(...))` need not end |
| `C76_positivize_refuted` | `positivize` is to choose between a unit vector and its negative, but counts zero as positive in both, so vectors that end in zero, such as those along the first axis, are given back as they are; the inertial cut then depends on the sign the eigenvector came with |
| `C78_best_refuted` | when no cutting plane is within the tolerance, the comment says the one given is the best that was found, but it is the last one tried along the last perturbed axis; with two points of masses two and one all points are marked, so one half of the ranks gets nothing, although the very first plane had put one third of the mass there |
| `C79_parent_refuted` | `parent_path` of a path without a separator gives the path itself, so the pieces named in `steps.pvd` in the current directory are looked for below `steps.pvd/` and not found |
| `C79_kind_refuted` | `status` tests single bits of the mode where the kind is the value of all of them: block devices are directories, character devices are links, and sockets are regular files |
| `C79_remove_refuted` | `remove_all` asks for the kind of an entry through links, so a link to a directory elsewhere makes it delete everything in that directory |
| `C80_degenerate_refuted` | `intersect_degenerate_metrics` in two dimensions compares the directions in which the metrics are degenerate with each other instead of one with the other's regular direction: for directions at right angles (or more) the second metric is lost, for equal directions a singular matrix is inverted |
| `C81_lengths_refuted` | if only the number of elements is to be limited, `generate_metrics` checks the lengths, which are not used, instead of the numbers of elements; numbers that contradict each other are found only after hundred rounds |
| `C81_derivative_refuted` | `get_derivative_metrics` looks up a tag on elements among the tags on vertices, where it has just been found not to be, so gradients and second derivatives on elements always fail |
| `C82_triangle_refuted` | `get_tri_pad_dists` overwrites the distance of one corner with that of the next, so the last one wins and not the least |
| `C82_plane_refuted` | `get_tet_pad_dists` takes the vector from the corner to the plane for a position when it asks whether the foot lies on the side, so the answer is right only for a corner at the origin |

## 6. Wrong programs

`seeded/LOG.jsonl` has one line per attempt: the edited definition, the edit, the claim it breaks, the
theorems that failed and those that were tightened. A failing theorem only shows that a proof no
longer goes through; entries say so where the edit turned out to be equivalent, or where only a helper
lemma was false. Entries that survived led to the tightened theorems named there.

## 7. Files of `/repo/src` cited by the model

Every other file is not modelled.

* `Omega_h_adapt.cpp`: AdaptDriver, Approach, Stats
* `Omega_h_adapt.hpp`: AdaptDriver, MetricInput, Transfer
* `Omega_h_adj.cpp`: Adj, Coarsen, Correct, UnmapMesh
* `Omega_h_adj.hpp`: Adj
* `Omega_h_affine.hpp`: SmallMat
* `Omega_h_align.cpp`: Align
* `Omega_h_align.hpp`: Align
* `Omega_h_amr.cpp`: Amr
* `Omega_h_amr.hpp`: Amr, UnmapMesh
* `Omega_h_amr_topology.cpp`: Amr
* `Omega_h_any.hpp`: Any, Expr
* `Omega_h_approach.cpp`: Approach
* `Omega_h_array.cpp`: Mem
* `Omega_h_array.hpp`: Mem
* `Omega_h_array_ops.cpp`: Approach, ArrayOps, Compare, Conserve, Expr, Int128, Linpart, Map, Offer, Sort, Stats, Vtk
* `Omega_h_base64.cpp`: Base64
* `Omega_h_bbox.cpp`: SmallMat
* `Omega_h_bbox.hpp`: SmallMat
* `Omega_h_bipart.cpp`: Bipart
* `Omega_h_box.cpp`: Box
* `Omega_h_build.cpp`: Build, Linpart, Vtk
* `Omega_h_build_parser.cpp`: BuildParser, FirstSets
* `Omega_h_build_parser.hpp`: BuildParser
* `Omega_h_chartab.cpp`: Regex
* `Omega_h_chartab.hpp`: Regex
* `Omega_h_check_collapse.cpp`: Collapse
* `Omega_h_class.cpp`: Classify
* `Omega_h_cmdline.cpp`: CmdLine
* `Omega_h_cmdline.hpp`: CmdLine
* `Omega_h_coarsen.cpp`: Collapse, Offer
* `Omega_h_coarsen_flip.cpp`: Collapse
* `Omega_h_coarsen_overshoot.cpp`: Collapse
* `Omega_h_coarsen_qualities.cpp`: Collapse
* `Omega_h_coarsen_topology.cpp`: Coarsen
* `Omega_h_collapse.hpp`: Collapse
* `Omega_h_collapse_rail.cpp`: Collapse
* `Omega_h_comm.cpp`: Bcast, Compare, Dist, Int128, Nbx, Owners, Reduce
* `Omega_h_comm.hpp`: Bcast
* `Omega_h_compare.cpp`: Compare
* `Omega_h_compare.hpp`: Compare, Correct
* `Omega_h_confined.cpp`: Confined
* `Omega_h_conserve.cpp`: Conserve, Correct, Transfer
* `Omega_h_defines.hpp`: Compare, Element, File, Int128, Tags, Transfer, Vtk
* `Omega_h_dist.cpp`: Dist, Ghost, Migrate
* `Omega_h_dist.hpp`: Dist
* `Omega_h_eigen.hpp`: Metric
* `Omega_h_element.hpp`: Element
* `Omega_h_expr.cpp`: Expr
* `Omega_h_expr.hpp`: Expr
* `Omega_h_fail.hpp`: Res
* `Omega_h_few.hpp`: Expr, Shape, SmallMat
* `Omega_h_file.cpp`: File, FileDir, Vtk
* `Omega_h_filesystem.cpp`: Path
* `Omega_h_filesystem.hpp`: Path
* `Omega_h_finite_automaton.cpp`: Automaton, Determinise, Regex
* `Omega_h_finite_automaton.hpp`: Automaton
* `Omega_h_for.hpp`: Mem
* `Omega_h_functors.hpp`: Collapse, Conserve, Map
* `Omega_h_future.cpp`: Future
* `Omega_h_future.hpp`: Future
* `Omega_h_ghost.cpp`: Ghost
* `Omega_h_globals.cpp`: Owners
* `Omega_h_grammar.cpp`: Grammar
* `Omega_h_grammar.hpp`: Grammar
* `Omega_h_graph.cpp`: Collapse, Conserve, Laplace, Marks, SwapChoice
* `Omega_h_graph.hpp`: Graph
* `Omega_h_hilbert.cpp`: Hilbert
* `Omega_h_hilbert.hpp`: Hilbert
* `Omega_h_histogram.cpp`: Stats
* `Omega_h_hypercube.hpp`: Amr, Element, Simplify
* `Omega_h_indset.cpp`: Indset
* `Omega_h_indset_inline.hpp`: Indset
* `Omega_h_inertia.cpp`: Bipart, Cut
* `Omega_h_int128.cpp`: Int128
* `Omega_h_int128.hpp`: Int128
* `Omega_h_int_scan.cpp`: Scan
* `Omega_h_language.cpp`: Determinise
* `Omega_h_laplace.cpp`: Laplace
* `Omega_h_linpart.cpp`: Linpart, Owners
* `Omega_h_macros.h`: Cut
* `Omega_h_map.cpp`: Conserve, Graph, Map
* `Omega_h_mark.cpp`: Marks, Modify, Stats
* `Omega_h_mark.hpp`: Marks
* `Omega_h_math_lang.cpp`: Expr
* `Omega_h_matrix.cpp`: Expr, Vtk
* `Omega_h_matrix.hpp`: Expr, SmallMat, Transfer, Vtk
* `Omega_h_mesh.cpp`: Approach, Balance, Box, Classify, Collapse, File, Ghost, Indset, Marks, Owners, RefineQual, Stats, SwapChoice, Tags, Transfer, UnmapMesh, Vtk
* `Omega_h_mesh.hpp`: File, Tags
* `Omega_h_metric.cpp`: Approach, RefineQual
* `Omega_h_metric.hpp`: Metric, Shape
* `Omega_h_metric_input.cpp`: MetricInput
* `Omega_h_metric_intersect.hpp`: Metric
* `Omega_h_migrate.cpp`: Migrate
* `Omega_h_modify.cpp`: Modify, ModifyWorld
* `Omega_h_owners.cpp`: Owners
* `Omega_h_parser.cpp`: BuildParser, Parser
* `Omega_h_parser.hpp`: Parser
* `Omega_h_parser_graph.cpp`: FirstSets
* `Omega_h_pool.cpp`: Pool
* `Omega_h_pool.hpp`: Pool
* `Omega_h_profile.cpp`: Profile
* `Omega_h_profile.hpp`: Profile
* `Omega_h_quality.cpp`: Quality, RefineQual, Tags
* `Omega_h_quality.hpp`: Quality, RefineQual
* `Omega_h_reader.cpp`: Indent, Parser, Reader
* `Omega_h_reader.hpp`: Indent, Parser, Reader
* `Omega_h_reader_tables.hpp`: Indent
* `Omega_h_reduce.hpp`: Reduce
* `Omega_h_refine.cpp`: RefineQual, Transfer
* `Omega_h_refine_qualities.cpp`: RefineQual
* `Omega_h_refine_topology.cpp`: Refine
* `Omega_h_refine_topology.hpp`: Refine, RefineQual
* `Omega_h_regex.cpp`: Determinise, Regex
* `Omega_h_remotes.cpp`: Ghost, Migrate
* `Omega_h_remotes.hpp`: Dist, Ghost
* `Omega_h_reorder.cpp`: Vtk
* `Omega_h_scalar.hpp`: Adj, Align, Approach, ArrayOps, Build, Compare, Int128, Metric, Simplify, SmallMat, Stats, Tags
* `Omega_h_scan.hpp`: Scan
* `Omega_h_shape.cpp`: Tags
* `Omega_h_shape.hpp`: Quality, Shape, Tags
* `Omega_h_shared_alloc.cpp`: Ledger, SharedAlloc
* `Omega_h_shared_alloc.hpp`: File, Ledger, SharedAlloc
* `Omega_h_simplex.hpp`: Element, Shape
* `Omega_h_simplify.cpp`: Simplify
* `Omega_h_sort.cpp`: Sort
* `Omega_h_swap.cpp`: Offer, SwapChoice
* `Omega_h_swap2d.cpp`: SwapChoice
* `Omega_h_swap2d_qualities.cpp`: SwapChoice
* `Omega_h_swap2d_topology.cpp`: Swap2d
* `Omega_h_swap3d.cpp`: SwapChoice
* `Omega_h_swap3d_choice.hpp`: SwapChoice
* `Omega_h_swap3d_loop.hpp`: Swap3d
* `Omega_h_swap3d_qualities.cpp`: SwapChoice
* `Omega_h_swap3d_tables.hpp`: Swap3d
* `Omega_h_swap3d_topology.cpp`: Blocks, Swap3d
* `Omega_h_table.hpp`: Automaton, Parser
* `Omega_h_tag.cpp`: Compare, Tags, Transfer
* `Omega_h_tag.hpp`: Compare, File, Tags, Transfer
* `Omega_h_template_up.hpp`: Element
* `Omega_h_transfer.cpp`: Transfer
* `Omega_h_unmap_mesh.cpp`: UnmapMesh
* `Omega_h_vector.cpp`: Expr, Vtk
* `Omega_h_vector.hpp`: Expr, SmallMat
* `Omega_h_vtk.cpp`: Path, Pvd, Vtk
* `Omega_h_xml_lite.cpp`: Vtk, Xml
* `Omega_h_xml_lite.hpp`: Xml
