# Formal model of GBTL (cmu-sei/gbtl) in Lean 4

## 1. What is modelled

GBTL 3.0 is a header-only C++17 GraphBLAS library. A frontend
(`src/graphblas/*.hpp`) checks shapes and forwards to one of two CPU backends
(`platforms/sequential`, the default, and `platforms/optimized_sequential`,
which differs only in `mxm`). The model follows the code function by function:

| layer | files in `/repo/src/graphblas` | Lean modules |
|---|---|---|
| containers | `platforms/sequential/BitmapSparseVector.hpp`, `LilSparseMatrix.hpp`, `Vector.hpp`, `Matrix.hpp` | `Verif/Model/Vec.lean`, `Lil.lean`, `Tuples.lean` (extractTuples), `Print.lean` (printing) |
| row kernels | `platforms/sequential/sparse_helpers.hpp` | `Verif/Model/Helpers.lean` |
| operations | `platforms/sequential/sparse_*.hpp` | `Verif/Model/Mxm.lean` (mxm, mxv, vxm), `Ops.lean` (the others) |
| optimized mxm | `platforms/optimized_sequential/sparse_mxm*.hpp` | `Verif/Model/OptMxm.lean` |
| frontend checks | `operations.hpp`, `detail/checks.hpp` | `Verif/Model/Frontend.lean`, `Calls.lean` (a call as a value) |
| operators | `algebra.hpp` | `Verif/Model/Algebra.lean`, `AlgebraBits.lean` |
| index ranges | `indices.hpp` | `Verif/Model/Indices.lean` |
| programs | sequences of calls on shared variables, with any control flow | `Verif/Spec/Program.lean`, `Verif/Model/Program.lean`, `Verif/Spec/Threads.lean`, `Verif/Model/Threads.lean` |
| helpers | `matrix_utils.hpp`, `algorithms/metrics.hpp` (degrees) | `Verif/Model/Utils.lean`, `Normalize.lean` |
| algorithms | `src/algorithms/*.hpp` | `Verif/Model/Algo.lean` (loops), `Bfs`, `BfsBatch`, `AppendixBfs`, `Sssp`, `DeltaStep`, `Triangle`, `KTruss`, `KTrussInc`, `Mis`, `Mst`, `Metrics`, `MaxFlow`, `FordFulk`, `PageRank`, `Betweenness`, `BetweennessV`, `EdgeBetweenness`, `Cluster`, `Markov`, `Louvain` |
| demo programs | `src/demo/triangle_count_demo.cpp`, `k_truss_demo.cpp`, `louvain_demo.cpp`, `masked_mxm_homework.cpp`, `mxm_homework.cpp`, `sssp_demo.cpp`, `bfs_demo.cpp`, `bfs_level_demo.cpp`, `appendix_examples.cpp` (up to B.5, where it ends), `peer_pressure_demo.cpp`, `peer_pressure_karate_demo.cpp`, `louvain_karate_demo.cpp` | `Verif/Model/TriangleDemo.lean`, `TrussDemo.lean`, `LouvainDemo.lean`, `Homework.lean`, `MxmHomework.lean`, `SsspDemo.lean`, `BfsDemo.lean`, `LevelDemo.lean`, `AppendixDemo.lean`, `PeerDemo.lean`, `PeerKarate.lean`, `LouvainKarate.lean` |

The specification (`Verif/Spec/*.lean`) is separate from the model and small:
a vector is `Nat → Option α`, a matrix is `Nat → Nat → Option α`, and every
GraphBLAS operation is given pointwise, as in the GraphBLAS mathematical
specification (`T`, then accumulate, then masked write).

### Modelling decisions

* **Data.** A sparse row (`std::vector<std::tuple<IndexType,T>>`) is a list of
  pairs. A LIL matrix is `nrows, ncols, nvals, rows`; `nvals` is a separate
  counter as in the code, so the model can (and sometimes does) get it wrong.
  A bitmap vector is `size, nvals, vals, bitmap`; the stale values behind a
  cleared bit are kept.
* **Loops and iterators.** Each merge loop over two iterators is a recursive
  function over the two remaining suffixes; `push_back` order is list order.
  An iterator into a vector that is being inserted into is the remaining suffix.
* **Outcomes.** Operations return `Except Err state`. `Err` has one constructor
  per GBTL exception and a constructor `ub` for undefined behaviour (indexing a
  `std::vector` out of range). "Returns `ok`" thus includes memory safety.
  Functions that mutate state before throwing return the mutated state.
* **Types.** Scalars are polymorphic. Where C++ converts between scalar types
  the model takes an explicit conversion function. A mask element type `μ`
  comes with `truthy : μ → Bool` (`static_cast<bool>`).
* **Indices.** `IndexType` is `uint64_t`. Indices are `Nat`; wrap-around is
  modelled where the code does arithmetic that can wrap (`kronecker`, index ranges).
  Counters such as `m_nvals` are `Nat` (a matrix with 2^64 stored values cannot
  exist in memory).
* **Operators** are arbitrary functions; no algebraic law is assumed unless a
  theorem states it. Floating point is covered as far as it is "some type with
  some operations".
* **Loops of algorithms.** A `while` loop takes a number `fuel` of iterations it may
  make; one that has not ended by then yields `running`. Termination is stated as: some
  explicit amount of fuel (and any larger one) gives a result. Running forever is
  stated as: `running` for every fuel.

### Not modelled

* The GPU/other platforms, logging (`GRB_LOG_*`), the state of streams, timing.
* Allocation failure, except in `Verif/Model/Alloc.lean` and `Verif/Model/AllocOpt.lean` (C98, C101): there every `emplace_back`, `emplace`,
  growing `resize` and row copy of the containers is a request for memory that may fail, and the
  temporaries of an operation make any number of requests. Assumed there: a `std::vector` whose
  `emplace_back`, `emplace` or `resize` throws is as it was (promised by the standard for scalars), and copying
  a vector of rows copies row after row (so in libstdc++ and libc++; the standard does not promise it).
  Not covered: the constructors.
* Iterator types of `build` and `extractTuples` (arrays as lists).
* Stateful functors: an operator is a pure function, except in `Verif/Model/Effects.lean`, where it may change a state and throw (C96). (Where an algorithm uses
  a stateful lambda, `sssp`, `mis` and `louvain_cluster`, the state is modelled explicitly.)
* The deprecated functions in `src/graphblas/detail`, the tests, and the demos other than
  `triangle_count_demo.cpp`, `k_truss_demo.cpp`, `louvain_demo.cpp`, `masked_mxm_homework.cpp`, `mxm_homework.cpp`, `bfs_demo.cpp`, `bfs_level_demo.cpp`, `appendix_examples.cpp`, `peer_pressure_demo.cpp`, `peer_pressure_karate_demo.cpp`, `louvain_karate_demo.cpp` and `sssp_demo.cpp` (with whole numbers, not `double`). In `triangle_count_demo.cpp` and `louvain_demo.cpp`: reading text that is not a number, and timing.
* C++ template dispatch itself: which overload is chosen is read off the code.

## 2. Trusted base

* Lean 4.33.0's kernel.
* Axioms: at most `propext`, `Classical.choice`, `Quot.sound` (Lean's standard
  three). No axiom is added; no `sorry`, `native_decide`, `bv_decide`.
* The model itself: that the Lean definitions say what the cited C++ lines do.
  Every definition cites the lines it models.

## 3. Plan per property

| id | modelled | proof |
|---|---|---|
| C01 | `BVec` operations | refinement to `Nat → Option α`, induction over the list of calls, invariant "lengths = size, nvals = number of set bits" |
| C02 | `Lil` element operations | same, invariant "rows sorted, in range, nvals = sum of lengths" |
| C03 | `BVec.build` | fold invariant over the tuple list; the nvals clause is false with repeated indices: disproved with a witness, content part proved as `_partial` |
| C04 | `Lil.build` | induction over tuples |
| C05 | `resize` of both | direct, via invariants |
| C06 | `operator==` of both | extensionality of sorted rows / bitmaps under the invariant |
| C07 | `extractTuples`, `build` | sortedness + extensionality |
| C08 | all operations | every operation theorem also concludes the invariant |
| C09–C12 | `sparse_mxm/vxm/mxv` | loop invariants for `axpy`, `dot`; common tail (accumulate + masked write) proved once. Transposed `mxm(Aᵀ,Bᵀ)` and `mxv(Aᵀ,u)` swap the arguments of the multiply: disproved in general, proved when the multiply commutes |
| C13–C15 | `sparse_ewiseadd/ewisemult/apply` | merge-loop lemmas |
| C16–C17 | `sparse_reduce` | fold lemmas; scalar reduce of a matrix under monoid laws |
| C18–C20 | `sparse_extract/assign` | expansion lemmas; constant assign with unsorted or repeated indices is wrong: disproved, proved for ascending lists and AllIndices; its exact result for every list is proved by induction along the merge (`Lemmas/AssignConst.lean`): a masked write sees only the indices larger than all listed before, an unmasked one the last (vector) or first (matrix) entry; the sort in assign is determined for lists without repetitions (`C19_any_sort`) |
| C21, C22 | `sparse_transpose/kronecker` | push-order lemmas; kronecker shape check wraps: disproved, proved without wrap |
| C23–C25 | `apply_with_mask`, mask rows, accumulate | from the common tail |
| C26, C27 | frontend checks, `check_index_array_content` | case analysis, the checks run before any write; for `assign` with AllIndices and a source larger than the output, each loop commutes with changing the width of the matrix, so the result is read off a wider output |
| C28–C30 | optimized `mxm` | each specialised kernel meets the same pointwise specification. `A·Bᵀ` without mask and accumulator keeps stale rows, `Aᵀ·Bᵀ` converts B's values to A's type, accumulators with another result type convert differently: disproved with witnesses; the result of every call is characterised; agreement proved for every other call, with any argument shared with the output |
| C31 | `algebra.hpp` | integers with per-type ranges, promotions, wrap-around and undefined signed overflow; overflow of `Plus`/`Times` (incl. `uint16_t` products, promoted to `int`) and the logical monoids off `bool` (identity is not one): disproved |
| C32, C33 | `bfs.hpp` | loop invariant "levels = hop distance + 1 for distance < depth", termination measure: vertices without a level. A stored `false` edge can make `bfs_level` run forever: proved |
| C34–C36, C46 | `sssp.hpp` | Bellman–Ford invariant over walks (round k = best over walks of at most k edges). Weights are values of an integer type, one type for graph and distances; a signed sum that overflows has an arbitrary value `ov`, and the theorems hold for every `ov` when no walk of at most n edges overflows. The flag that the comparison lambda writes is read off the sequence of compared pairs. `filtered_sssp` drops newly reached vertices at distance 0: disproved, proved when no walk has weight 0. For all weights an invariant gives what is left: `false` only with a negative cycle (the vertices found in the last round lie on a chain on which every return is an improvement, so n edges repeat one), `true` with distances that only edges into vertices at distance ≥ 0 could improve; without negative weights exactly the distances of the graph `Spec.withoutZero` |
| C47 | `metrics.hpp` | reductions of the sssp and batch_sssp results; extrema by an invariant of the row folds. `closeness_centrality` returns the sum of the distances from the vertex, neither inverted nor to the vertex: disproved, and the sum is proved |
| C48, C49 | `bfs.hpp`, matrix and wavefront overloads | per row, the invariants of C32 and C33; the number of rounds is the depth, below n by a pigeonhole argument. The parents are computed in the graph's scalar type: proved when it (and that of the wavefront) represents every vertex number, disproved for a graph of `bool`; what is stored for any integer types is stated with labels instead of numbers (`_actual`) |
| C50 | `mst.hpp`: `mst`, `argmin` | Prim's loop with an invariant: the edges taken connect the marked vertices, `d` holds the lightest edge from a marked vertex to every other one, and for every spanning tree there is a completion of the edges taken that is no heavier (exchange argument on lists of edges). Sums of fewer than n weights must be representable in the scalar type |
| C37 | `apsp.hpp` | Floyd–Warshall invariant (after k rounds: best over walks through vertices below k); a self-loop of positive weight is returned as the distance of the vertex to itself: disproved, proved without such loops; with them the least weight of a nonempty way back is returned (proved for all graphs without negative cycles) |
| C38 | `triangle_count.hpp` and appendix B7, in a machine integer type | counting argument over finite sums; wedge and triangle counts must be representable |
| C39 | `k_truss.hpp` | monotone fixpoint; k = 2 removes triangle-free edges: disproved, proved for k ≥ 3; for any k (and any conversion of k - 2 to the scalar type) the truss that is returned is named by `C39_every_k` |
| C40 | `mis.hpp`, `mis_appendixB6`; random draws are an arbitrary function of round and vertex, floating point types abstract | partial correctness invariant for every draw function; exactly the set of Luby's rounds; termination without ties; a vertex whose only edge is a loop runs forever |
| C41–C43 | `matrix_utils.hpp`, constructors, `metrics.hpp` | direct; degrees come back in the graph's scalar type: disproved for `bool`, proved when representable |
| C44 | `algebra.hpp` semirings | distributivity and annihilation on each integer type; the "true semiring" comments on MaxPlus, MinTimes and PlusMin are wrong: disproved |
| C45 | `algebra.hpp` operators except `Power` (`std::pow`) | the exact mathematical result whenever arguments and result are representable: quotients truncated towards zero, bitwise operators bit by bit on two's complement; mixed-sign comparison, `abs(min)`, `BitwiseNot` and `BitwiseXnor` on `bool`: disproved |
| C51 | `maxflow.hpp` lines 36-247 | The algorithm as written, with overflow as an outcome. Invariants: preflow, valid labels, heights below 2n, the arcs before `seen` cannot be pushed along, the list is in topological order and the vertices before `p` have no excess. Measures give a cubic bound on every loop. Maximality: max-flow/min-cut on the residual graph. Negative result: narrow unsigned scalars can run forever |
| C52 | `maxflow.hpp` lines 250-406 | The search, the walk back along the parents and the matrix operations as written. Invariant: `F` holds a net flow modulo the width of the type, `R` the capacities left; the path is a shortest one, so it never uses an edge in both directions; each augmentation adds at least one. Without a path the cut theorem of C51 gives maximality. The loop stops after as many augmentations as the graph has edges, so the result can be too small (25 edges, 41 instead of 43) |
| C53 | `k_truss.hpp` lines 37-275 | The calls as written. Invariant: `E` is the incidence matrix of a sublist of the edges that contains every truss; row i of `R` counts with how many ends of edge i each vertex is adjacent (stored zeros allowed, the removed part is subtracted); `s` holds the numbers of triangles. For an unsigned scalar type and k < 2 the threshold wraps and every edge goes: `C53_small_k_unsigned_wrong` |
| C54 | `sssp.hpp` lines 276-472 | The calls as written, all scalar types of integers. Inner loop: every vertex of the bucket is either still to be processed or its light edges are relaxed; ends because the sum of the distances decreases. Outer loop: all edges out of vertices below the bucket are relaxed. Edges of weight zero break it (the mask `tReq` drops requests of value zero): `C54_zero_weight_wrong`. The invariants hold for the graph `Spec.deadEnds`, in which the vertices that the source has an edge of weight zero to have no edges out of them: these are exactly the vertices never processed, so `C54_delta_step_actual` gives the result for all weights that are not negative; with width zero it runs forever: `C54_zero_width_forever` |
| C55 | `appendix_algorithms.hpp` lines 51-163 | The calls as written; a do-while loop is its body followed by the while loop. Invariant of C32: the levels hold the vertices closer than the depth, the wavefront those at the depth. B3 makes the calls of `bfs` (C33) |
| C56 | `bc.hpp` lines 48-806, the four batch versions | The calls as written, `float` as rationals, `int32_t` counts with arbitrary results on overflow. The specification lists the shortest paths of a pair as walks of least length. Brandes' recurrence for dependencies is proved from it (`dep1_rec`); loop invariants: the frontier counts the shortest paths to the vertices at the depth, `Nsp` those to all vertices seen, `BCu` after the step for depth `i` is one plus the dependency for the vertices at depth `i` and beyond |
| C57 | `bc.hpp` lines 808-1142 | The calls as written, with the scalar type's operations as a parameter (`BcOps`). The specification and the recurrence are those of C56; the same invariants (`Front`, `Nsp`, `BackAt`) for one vector per source, then an induction over the sources |
| C58 | `appendix_algorithms.hpp` lines 165-325, `bc.hpp` lines 1002-1142 | As C56. For B4: an empty `delta` gives the dependencies; a `delta` that is not empty enters `1 + delta`, so that the paths to `t` count `1 + delta t` times (`C58_appendixB4_actual`). For B5: right with as many sources as vertices or without edges to follow, and `DimensionException` in all other cases, because the Sigmas are allocated with rows and columns exchanged. With an integer type the multiplicative inverse truncates, and a vertex gets the number of pairs whose only shortest path visits it (`C58_vertex_betweenness_int_actual`) |
| C59 | `bc.hpp` lines 1156-1297 | The calls as written, with the operations of the scalar type as a parameter (`EbcOps`). Specification (`Spec/EdgeBetweenness.lean`): list the shortest paths, keep those with the edge. Lemmas: shortest paths with an edge are a product of two counts (`ethr_eq`), a path ends or goes on (`ext_rec`). Invariants of both loops for any type whose operations are exact up to a bound, then induction over the roots. A loop at a root is counted as a second path: disproved, and the exact result with loops is proved by the same invariants with the root in the first frontier (`Props/EdgeBetweennessLoops.lean`) |
| C60 | `matrix_utils.hpp` lines 137-205 | The calls as written, with `Plus`, `Times` and `MultiplicativeInverse` of the scalar type as a parameter (`NormOps`); the diagonal matrix makes each sum of products a single product (`osum_single`). Exact arithmetic stands for floating point. `normalize_cols` of a matrix that is not square always throws, and in integer types the inverse is rounded to zero: both disproved |
| C61 | `page_rank.hpp` lines 57-177 | The calls as written; `break` is a flag. Specification (`Spec/PageRank.lean`): the textbook recursion. Invariant: after `k` rounds the stored ranks are those of the textbook for the vertices with an edge to them. Convergence: the sum of the absolute changes shrinks by the factor `d`. A vertex with edges from it but none to it is dropped after the first round, and the vertices it alone points to then grow in every round: disproved, for every such graph; what is returned on any graph is the recursion `heldAfter` |
| C62 | `cluster.hpp` lines 153-425 | The calls as written; `break` is a flag; exact arithmetic stands for floating point. Specification (`Spec/Cluster.lean`): candidates, votes, the elected cluster, the rounds. The first pair of products marks the maxima of the columns of the tally, the second breaks ties by number (`ppColMax_ok`, `ppBody_ok`); invariant over the rounds (`ppLoop_ok`). A vertex nobody in a cluster votes for is dropped from all clusters: the last part is disproved for graphs with such vertices. Exactly which vertices are left: by induction on the rounds, those at the end of a walk (`Props/ClusterExact.lean`) |
| C63 | `cluster.hpp` lines 57-121 | The loop over the extracted elements with its two arrays, an access beyond their end being undefined behaviour; the second version as its `vxm`. Invariant over the elements seen so far (`asgFold`). Disproved: the first version for more columns than rows (exactly when: `Props/ClusterExact.lean`), the second for columns with several elements |
| C64 | `cluster.hpp` lines 446-533 | The calls as written; the early return is a flag; exact arithmetic stands for floating point. Specification (`Spec/Markov.lean`): matrix power, inflation, the rounds, on matrices of rational numbers. The expansion is masked by its own result, so no element can appear at a position where the graph has none: disproved on a path, proved for graphs whose edges are transitive, for which the mask loses nothing (`mclExpand_ok`); the rounds with the mask are specified separately (`keptAfter`) and proved for every graph with positive weights |
| C65 | `cluster_louvain.hpp` lines 88-531 | Both functions call by call, with a flag for the differences; the random numbers are an arbitrary sequence; exact arithmetic, with minus infinity where a maximum is computed. Specification (`Spec/Louvain.lean`): modularity, considered clusters, moves, sweeps. Proved: how the modularity changes with a move (`rawMod_move`), that the code's scores order the clusters by it, that breaking ties leaves one of the best clusters, the sweeps and the two ways to end. Disproved: a vertex is never left or put in a cluster of its own, so the modularity can end below that of the start; on a vertex with no other vertex to join the loop that breaks ties never ends |
| C66 | `cluster_louvain.hpp` lines 51-72 | The calls as written. The sizes of the two vectors are exchanged, so matrices that are not square are refused (disproof, and all of them: `Props/ClusterExact.lean`); for square ones the last column with an element is proved, and of what Louvain clustering returns, the cluster |
| C67 | all operations and methods, together | Programs are trees of calls branching on the answer (`Spec/Program.lean`), run on a store of modelled containers (`Model/Program.lean`; a mask that is the output is read while the output is written). Refinement, call by call, to a store of shapes and partial functions, by induction over the program. A second meaning (`Spec/ProgramOver.lean`) also keeps, for every vector, how many elements too many it reports; with it, `build` from lists with repeated indices need not be excluded. `Spec/ProgramLiteral.lean` replaces operators by those that the code calls; with it, no operators need be excluded. Excluded (`handled`) are exactly the calls for which other claims have counterexamples, or that GraphBLAS leaves undefined |
| C68 | `indices.hpp` lines 86-193 | `IxRange` with arithmetic modulo 2^64; the iterator loop is proved to visit what indexing visits (induction on the distance), so that a range may be treated as a list; slices and blocks follow from C18-C20; a reversed range contains the largest index and is therefore out of bounds |
| C69 | all functions reachable from a program of C67 | an invariant on array lengths and positions (`Spec/Safety.lean`) that is weaker than consistency: nothing about counts, order or repetitions; every function is shown to keep it and not to reach `ub` or an interrupted write; induction on the program. False for an empty dense matrix, `AllIndices` with a larger source, and wrapped Kronecker shapes: witnesses. The same for the `optimized_sequential` backend, each `mxm` kernel with operands and mask that may be the output |
| C70 | the calls without mask and accumulator, composed | `Spec/Laws.lean` states the laws of the operators; sums of optional values with exchange of summation; equality of matrices is equality of objects. `C70_predefined` says which predefined semirings satisfy the laws on which types; `MinPlusSemiring<uint8_t>` does not give associative products (`C70_min_plus_wrong`) |
| C71 | the calls without mask and accumulator, composed | from the content of each call's result (`Lemmas/Laws.lean`); equality of matrices is equality of objects, vectors agree on size, count and every stored value |
| C72 | any matrix or vector call, its mask, accumulator and mode | `MCall.pointwise` / `VCall.pointwise`: every call acts on each position separately, and the mask chooses between the old and the new value there; the laws are then equalities at one position |
| C73 | the calls without mask and accumulator, composed | splitting a sum over k*k' indices into a double sum, and index arithmetic |
| C74 | the calls without mask and accumulator, composed | `Idx.Picks`, `Idx.pick`, `Idx.comp` in `Spec/Laws.lean` say what an index argument names; what assign leaves at selected and at other positions |
| C75 | the write loops through the iterators, a write past the end of an array being undefined behaviour (`Model/Tuples.lean`); all algorithms that extract tuples use it | `VFilled`/`MFilled` in `Spec/Tuples.lean` describe the arrays afterwards; the loops write one block at the front, by induction over positions and rows |
| C76 | the loops that write the text, as lists of characters (`Model/Print.lean`); the text of a value and of the type name are parameters | `vectorText`/`matrixText` in `Spec/Print.lean` describe the text; the row loop by induction over the sorted row; uniqueness by splitting the text at ends of line and commas |
| C77 | a machine of threads (`Model/Threads.lean`) whose calls take time: they begin, read their arguments again and again while their outputs hold anything, and end; the calls are those of C67 | what a call is given is read off its signature (`Stmt.reads`, `Stmt.writes` in `Spec/Threads.lean`); every call depends on and changes these only (by cases); an invariant says that every thread follows its run alone; a counterexample shows that the sharing rule is needed. The machine takes the backend as a parameter, so that the theorems hold for `optimized_sequential` too |
| C78 | the program `triangle_count_demo.cpp` (`Model/TriangleDemo.lean`): reading loop, degrees, sort (any function with the contract of `std::sort`), relabelling, building, five calls | sums over all vertices are invariant under renumbering; six times the number of triangles is a sum over all ordered triples; the lemmas of C38 hold for any split of the edges into halves (`Halves`) |
| C79 | as C78, before the algorithms are called | the reading loop is characterised for every list of pairs (the last row is read twice), the degrees by induction over the rows; the failing parts are refuted for every file |
| C80 | the algorithms as in C32, C34, C37, C46, C48, C51 to C54, C39 | each is proved equal to the same quantity of the graph (hop distance, distance, maximum flow, largest truss), which is unique; unit weights: the length of a walk is its weight |
| C81 | the algorithms as in C32, C34, C51, C39 | walks, flows and trusses are carried along a bijection of the vertices and back (`Lemmas/Agree.lean`); the quantities are unique |
| C82 | programs as in C67 run with the optimized kernels of C28 for mxm (`Model/ProgramOpt.lean`) | one call: C28; programs: induction over the program, the state after a call being that of the other backend; one scalar type: the conditions on conversions hold by themselves |
| C83 | the algorithms of C34-C59, generated from their models with the optimized kernels of C28 for every mxm and the aliasing of their arguments (`Model/AlgoOpt.lean`) | every product is one for which C28 gives equality: plain, or A * transpose(B) with a mask, or with the output as its own first operand; loops: invariant that all matrices and vectors are consistent |
| C84 | the models of sssp, bfs_level and apsp (C34, C32, C37) | from the exact characterisations of C32, C34 and C37 and laws of weighted walks: reversal, scaling, monotonicity, concatenation |
| C85 | maxflow_push_relabel (C51); cuts in `Spec/Cut.lean` | max-flow min-cut theorem proved from the definition of maximum flow: the vertices reachable in the residual network form a cut of the same value; the laws follow from C51 |
| C86 | k_truss, k_truss2, triangle_count (C39, C53, C38) | the k-truss is the largest subgraph with enough triangles on every edge (C39, C53); a triangle is itself a 3-truss |
| C87 | k_truss (C53), k_truss_demo.cpp for any arrays (`Model/TrussDemo.lean`) | the k'-truss of the k-truss is the k'-truss; a sublist of distinct edges is determined by its elements; k_truss of a graph without edges constructs a vector of size 0 and throws |
| C88 | the betweenness functions of C56, C57, C59; lengths of shortest paths (`Spec/PathLength.lean`) | counting: shortest paths of d edges visit d + 1 vertices and use d edges; paths through a vertex are products of path counts, symmetric under reversal; sums are invariant under renumbering |
| C89 | `Model/LouvainDemo.lean`: the reading loop as a function of the numbers in the file, with the values left by a failed extraction and 64-bit decrements; the matrix by the model of `build`; the two clusterings | induction over the rows; what `build` stores (C04); composition with C65 and C66; partial, with the additional edge characterised for every file and proved wrong |
| C90 | the model of C61 (`Model/PageRank.lean`), over exact numbers | two runs in lockstep with a relation between their states, for the laws that hold on every graph; the iteration of C61 for the others; partial, with counterexamples |
| C91 | the model of C50 (`Model/Mst.lean`) | consequences of C50; the cut law by exchanging an edge of the tree, by induction on the number of edges; the paths from the cut law |
| C92 | the model of C47 (`Model/Metrics.lean`) | consequences of C47 and of renumbering for distances (C81); the triangle inequality by joining walks |
| C93 | the models of C62 to C65 | by induction on the rounds and moves; for Louvain clustering without mask, the gains of all the clusters on the vertex's own side add up to more than zero, so that one of them is better than any cluster on the other side |
| C94 | the model of C40 | the exact result of C40 (Luby's rounds), then double counting of pairs of a vertex and a neighbour, and induction on the rounds |
| C95 | the models of C01, C03 and of the operations; `Spec/Miscount.lean` says what each operation takes its operands for | every use of the number of elements in an operation is a test for zero; case distinction on the number reported and the number stored, and induction over the method calls |
| C96 | `Model/Effects.lean`: every kernel and call again, with operators that change a state and may throw, and the output container as part of the state; conversions between scalar types and `identity()` are taken not to throw | `Spec/Effects.lean` says which calls are made in which order; the output is stored in the last step only, which an invariant over the code shows; agreement with the functional model kernel by kernel; wrong for `Matrix::build` and the optimized mxm, which store as they go, with a witness and what they leave |
| C97 | the models of the algorithms as they are; `Spec/Refuse.lean` says what refusing means | a triple 'ends with a result that satisfies Q or with an exception' for every call, from the theorem that every call either returns or throws; the first call whose shapes do not fit contradicts its own acceptance; `maxflow_push_relabel`, `mis_appendixB6` and `triangle_count_masked(L, U)` accept unfitting arguments, with witnesses; traversals of empty wavefronts return whatever levels they are given |
| C98 | `Model/Alloc.lean`: the methods and the write phase of the operations again, statement by statement, with a memory that serves a given number of requests and then throws | a triple 'with enough memory this result and this container, else `bad_alloc` and a container that satisfies F' for every statement; vectors, `setElement`, matrix `resize` and the first phase of every operation are all or nothing; `build` of a matrix keeps a prefix of the triples, a column assignment a prefix of the rows; a matrix operation, a row assignment and a matrix copy leave a matrix whose `nvals` is too large (`Torn` says exactly what is left), with witnesses |
| C99 | the models of the operations and of the containers as they are, applied to matrices that only satisfy `Lil.Over` (sorted rows, `nvals` not too small) | the first phase of every operation is the same for `A` and `A.recount`, because a matrix without elements contributes nothing either way; the second phase is followed row by row with the invariant that the two outputs differ by a constant in `nvals`; method calls by induction over the sequence |
| C100 | `optMxm` as it is, applied to matrices with any `nvals` | a relation `Rel` between functions from matrix to matrix: outputs with the same shape and rows are taken to such outputs or to the same error; closed under loops, reading, `setRow` and `mergeRow`, proved for all kernels and the 24 functions, whose tests of `nvals` agree by hypothesis; negation by a concrete call |
| C101 | the 24 functions again in the monad of C98, where every store of an element and every temporary can fail | relations `Writes` (one row) and `EndsLike` (a function) between the memory-limited code and the existing model, closed under reading, branching, temporaries and loops; loops by the chain of states of C98; the column-wise kernel by an invariant that rows only grow; negation by a concrete execution |
| C102 | the code of C98 and C101, with failed attempts as an inductively defined relation on what the output holds | invariant of failed attempts (shape, sorted rows, count not too small) by induction on their number; the result of operations that do not use the old output is determined by get (C10 and following), so it is the same matrix, and C99 and C100 give the count; negations by concrete executions |
| C103 | the programs of C67 with the calls of C98 and any memory for each call (`Model/AllocProgram.lean`); the meaning of a call is that of C67, or a failure that may change the elements of its output (`Spec/AllocProgram.lean`) | invariant of the store (rows in order, at least the stored elements reported, vectors consistent) kept by every call, by cases; the effect of a call that succeeds from C67 on the store with the right counts and C99; induction on the program; the negation by an execution |
| C104 | the models of C59, C62 and C64; the renumbered graph is one that has at d(u), d(v) what the graph has at u, v (`Spec/Renumber.lean`); ties are described without clusterings, by sets of voters (`Spec/Numbering.lean`) | the result of each function is its specification's (C59_edge_betweenness_actual, C62, C64_markov_cluster_actual), and the specifications commute with renumbering: sums over all vertices do, elections do if there are no ties, shortest paths do by counting walks; for Markov clustering the rounds stop at the same time because the errors are equal; for Louvain clustering a path for which no ties arise, evaluated under two numberings |
| C105 | the models of the calls; the programs of the user are written down in `Spec/Blocks.lean` | induction over the list of lengths: the output so far holds the sums over the first blocks, or the rows done so far; each call by C10, C12, C17, C18, C19, C68 and C72 |
| C106 | the models of C03 and C04 | by induction over permutations, the values combined at a coordinate do not change when neighbouring tuples are exchanged; equality of matrices because a consistent matrix is determined by its shape and elements |
| C107 | a relation between an operand and itself or, for a view, the matrix that transpose wrote (Spec/Views.lean); the calls of C10 to C22 | the copy has the shape and the elements of the view, so both calls have the same specification, and a consistent matrix is determined by its shape and elements; the products of two views, and of a view with a vector, are refuted for a multiplication that is not commutative by concrete witnesses |
| C108 | a relation between containers, outputs and operators of two calls (Spec/Related.lean); the calls of C09 to C22 | sums, folds, accumulation and masked writing take related arguments to related results by induction and cases; both calls are replaced by what C09 to C22 say they compute, also where that is not what GraphBLAS asks for |
| C109 | the programs powerBySteps and powerBySquares, the value along a walk and the choices of vertices (Spec/Powers.lean); mxm as in C09 | by induction over the exponent, with distributivity for the product of a sum; associativity of calls (C70) for the exponents |
| C110 | the programs closeBySteps and closeBySquares (Spec/Closure.lean), walks as in C109; mxm with an accumulator as in C09, C72; apsp as in C37 | the accumulator is split off by C72; idempotence absorbs the sums of shorter walks; a walk of n or more edges visits a vertex twice, and the closed part is cut out |
| C111 | `main` with the number of nodes and the edges as parameters, build, the loop of apply and mxm, print_matrix (Model/Homework.lean) | the loop bodies are equal; C48 for the levels, C04 for the matrices that are built; the tables by evaluation in the kernel |
| C112 | `run_demo` with the number of nodes, the edges and the type as parameters, print_vector (Model/SsspDemo.lean) | with unit weights the weight of a walk is its length, so C34 and C46 give hop counts; C04 and C41 for the containers that are built; the printed text by evaluation in the kernel |
| C113 | `main` with the number of nodes, the edges and the root as parameters (Model/BfsDemo.lean) | C49 for the searches, whose scalar type here has all node numbers, C04 for the matrices that are built; a parent is unique, so the two answers agree; the printed text by evaluation in the kernel |
| C114 | `main` with the number of nodes, the edges and the root as parameters (Model/LevelDemo.lean) | C48 for both searches, with levels below 2^32 since hop counts are below the number of nodes; C04 for the graph; the printed text of the karate club by evaluation in the kernel |
| C115 | `main` with the sizes, elements and answers as parameters and any scalar type (Model/MxmHomework.lean) | C04 and C09 for the product, C07 for the tuples, induction over the two loops of the check; that a missing answer goes unnoticed by a product with an empty row |
| C116 | `main` up to B.5 with the graphs, starts and sources as parameters, and what follows as an arbitrary continuation (Model/AppendixDemo.lean) | C55 and C58 applied to the matrix built from the edges; the loop of B.4 by induction with C13; path counts of the program's own graphs by evaluation in the kernel |
| C117 | `main` for one graph with the nodes, edges and limit as parameters (Model/PeerDemo.lean) | C62 and C63 applied to the matrix built from the edges; that a settled clustering stays by the uniqueness of the result for a limit; the first rounds with the program's own graphs by evaluation in the kernel |
| C118 | `main` with the nodes, edges and limit as parameters (Model/PeerKarate.lean) | C13 for the added loops, C62 and C63 for the two clusterings; the lists for the program's own graph by evaluation in the kernel |
| C119 | `main` with the nodes, edges, seeds and random numbers as parameters (Model/LouvainKarate.lean) | C65 and C66 applied to the matrix built from the edges; the loops over the seeds by induction |
