{"id": "C01", "title": "Vector element access behaves like a finite map", "statement": "After any sequence of setElement, removeElement and clear calls on a Vector created with a size, hasElement(i) and extractElement(i) answer exactly what a finite map from indices to values would answer after the same sequence, and nvals() is the number of stored elements. An out-of-range index throws IndexOutOfBoundsException, reading an absent element throws NoValueException, and a throwing call changes nothing.", "quantifier": "every vector size, every element type, every finite history of calls with arbitrary indices and values", "why_tests_cant": "The set of call histories is infinite; a test exercises a handful of histories on small sizes.", "anchors": ["src/graphblas/platforms/sequential/BitmapSparseVector.hpp: setElement, removeElement, clear, hasElement, extractElement, nvals", "src/graphblas/Vector.hpp: Vector"]}
{"id": "C02", "title": "Matrix element access behaves like a finite map", "statement": "After any sequence of setElement, setElement-with-merge, removeElement and clear calls on a Matrix, hasElement(i,j) and extractElement(i,j) answer exactly what a finite map on coordinates would answer, and nvals() is the number of stored elements. Out-of-range coordinates throw IndexOutOfBoundsException, absent elements throw NoValueException, and a throwing call changes nothing.", "quantifier": "every matrix shape, every element type, every finite history of calls with arbitrary coordinates and values", "why_tests_cant": "Insertion keeps rows ordered by position search; wrong behaviour can depend on an arbitrary insertion/removal order.", "anchors": ["src/graphblas/platforms/sequential/LilSparseMatrix.hpp: setElement, removeElement, clear, hasElement, extractElement, nvals", "src/graphblas/Matrix.hpp: Matrix"]}
{"id": "C03", "title": "Vector build stores the tuples, combining duplicates with dup in order", "statement": "Vector::build(indices, values, dup) leaves, at every index, the values given for that index combined left to right with dup, and nothing elsewhere, whatever the vector held before; nvals() equals the number of distinct indices. If some index is out of range it throws IndexOutOfBoundsException and the vector is unchanged.", "quantifier": "every vector, every tuple list (any order, any repetition), every dup function, including non-associative ones", "why_tests_cant": "Depends on arbitrary repetition patterns in the tuple list.", "anchors": ["src/graphblas/platforms/sequential/BitmapSparseVector.hpp: build", "src/graphblas/Vector.hpp: build"]}
{"id": "C04", "title": "Matrix build stores the tuples, combining duplicates with dup in order", "statement": "Matrix::build on an empty matrix leaves, at every coordinate, the values given for that coordinate combined left to right with dup, and nothing elsewhere; nvals() equals the number of distinct coordinates. On a non-empty matrix the existing value takes part as the first operand.", "quantifier": "every matrix, every in-range tuple list, every dup function", "why_tests_cant": "Depends on arbitrary repetition patterns and orders in the tuple list.", "anchors": ["src/graphblas/platforms/sequential/LilSparseMatrix.hpp: build, setElement(merge)", "src/graphblas/Matrix.hpp: build"]}
{"id": "C05", "title": "resize keeps exactly the in-range elements", "statement": "Vector::resize and Matrix::resize keep every stored element whose coordinates are in range of the new shape, with its value, drop every other one, never create an element, and leave nvals() equal to the number of stored elements. Size zero throws InvalidValueException and changes nothing.", "quantifier": "every container content and every pair of old and new shapes", "why_tests_cant": "Growth and shrink interact with arbitrary content.", "anchors": ["src/graphblas/platforms/sequential/BitmapSparseVector.hpp: resize", "src/graphblas/platforms/sequential/LilSparseMatrix.hpp: resize", "src/graphblas/Vector.hpp: resize", "src/graphblas/Matrix.hpp: resize"]}
{"id": "C06", "title": "Container equality is equality of shape and stored content", "statement": "operator== on two consistent Vectors (Matrices) returns true exactly when they have the same shape and store the same elements with equal values; values left over in slots of removed elements never matter. (Consistent: nvals() is the number of stored elements, as after any call except the two that C03 and C42 show to miscount.)", "quantifier": "every pair of containers reachable through the API", "why_tests_cant": "Leftover values and histories are unbounded; only a relational argument over all pairs of histories settles it.", "anchors": ["src/graphblas/platforms/sequential/BitmapSparseVector.hpp: operator==", "src/graphblas/platforms/sequential/LilSparseMatrix.hpp: operator=="]}
{"id": "C07", "title": "extractTuples lists each stored element exactly once, in ascending order, and build inverts it", "statement": "extractTuples on a consistent Vector or Matrix (see C06) produces exactly the stored (coordinate, value) pairs, each once, in ascending (row-major) order, exactly nvals() of them; building an empty container of the same shape from that output gives a container equal to the original.", "quantifier": "every reachable container", "why_tests_cant": "The round trip has to hold for all contents.", "anchors": ["src/graphblas/platforms/sequential/BitmapSparseVector.hpp: extractTuples, getContents", "src/graphblas/platforms/sequential/LilSparseMatrix.hpp: extractTuples"]}
{"id": "C08", "title": "Every operation leaves its output container consistent", "statement": "After any GraphBLAS operation on consistent containers the output container is consistent: nvals() equals the number of stored elements, every stored coordinate is in range, and element lookup, extractTuples and equality keep agreeing with each other.", "quantifier": "every operation, every input, every mask, accumulator and output-control choice, hence every program built from them", "why_tests_cant": "A corrupt internal order or count shows up only in a later call of another operation.", "anchors": ["src/graphblas/platforms/sequential/LilSparseMatrix.hpp", "src/graphblas/platforms/sequential/BitmapSparseVector.hpp", "src/graphblas/operations.hpp"]}
{"id": "C09", "title": "mxm computes C<M,z> = C accum (A +.* B)", "statement": "After mxm(C, M, accum, semiring, A, B, outp), at every writable position C(i,j) holds the GraphBLAS value: the sum (with the semiring's add, in ascending k) of mult(A(i,k), B(k,j)) over the k where both are stored, accumulated with the old C(i,j) when an accumulator is given, absent when nothing contributes; non-writable positions keep the old value under MERGE and are deleted under REPLACE.", "quantifier": "every shape, every content, every semiring (no algebraic law assumed), every accumulator, every kind of mask, MERGE and REPLACE, default backend", "why_tests_cant": "The product ranges over arbitrary sparsity patterns, masks and operators.", "anchors": ["src/graphblas/operations.hpp: mxm", "src/graphblas/platforms/sequential/sparse_mxm.hpp: sparse_mxm (A,B)", "src/graphblas/platforms/sequential/sparse_helpers.hpp: axpy, ewise_or_opt_accum, write_with_opt_mask"]}
{"id": "C10", "title": "mxm with a transposed operand computes the product of the transposed matrix", "statement": "mxm with transpose(A) and/or transpose(B) writes the same result as mxm called on explicitly transposed copies: each term is mult(left operand value, right operand value).", "quantifier": "all of C09, for the three transposed operand combinations", "why_tests_cant": "Each combination is a different loop nest; disagreement depends on operators and patterns.", "anchors": ["src/graphblas/operations.hpp: mxm", "src/graphblas/platforms/sequential/sparse_mxm.hpp: sparse_mxm (A^T,B), (A,B^T), (A^T,B^T)"]}
{"id": "C11", "title": "vxm computes w<m,z> = w accum (u +.* A)", "statement": "After vxm, each writable w(j) is the sum over ascending k of mult(u(k), A(k,j)) over stored pairs (or A(j,k) for a transposed matrix), accumulated and masked per GraphBLAS; other positions kept (MERGE) or deleted (REPLACE).", "quantifier": "every size, content, semiring, accumulator, mask, output control", "why_tests_cant": "Arbitrary patterns, masks and operators.", "anchors": ["src/graphblas/operations.hpp: vxm", "src/graphblas/platforms/sequential/sparse_vxm.hpp"]}
{"id": "C12", "title": "mxv computes w<m,z> = w accum (A +.* u)", "statement": "After mxv, each writable w(i) is the sum over ascending k of mult(A(i,k), u(k)) over stored pairs (or A(k,i) for a transposed matrix), accumulated and masked per GraphBLAS; other positions kept or deleted.", "quantifier": "every size, content, semiring, accumulator, mask, output control", "why_tests_cant": "Arbitrary patterns, masks and operators, in particular non-commutative multiply.", "anchors": ["src/graphblas/operations.hpp: mxv", "src/graphblas/platforms/sequential/sparse_mxv.hpp"]}
{"id": "C13", "title": "eWiseAdd is the union merge", "statement": "After eWiseAdd, each writable position holds op(a,b) where both operands are stored, the only stored operand where one is, nothing where neither is, accumulated and masked per GraphBLAS; for vectors, matrices and every combination of transposed matrices.", "quantifier": "every shape, content, operator, accumulator, mask, output control", "why_tests_cant": "Arbitrary overlaps of sparsity patterns.", "anchors": ["src/graphblas/operations.hpp: eWiseAdd", "src/graphblas/platforms/sequential/sparse_ewiseadd.hpp", "src/graphblas/platforms/sequential/sparse_helpers.hpp: ewise_or"]}
{"id": "C14", "title": "eWiseMult is the intersection merge", "statement": "After eWiseMult, each writable position holds op(a,b) exactly where both operands are stored, accumulated and masked per GraphBLAS; for vectors, matrices and every combination of transposed matrices.", "quantifier": "every shape, content, operator, accumulator, mask, output control", "why_tests_cant": "Arbitrary overlaps of sparsity patterns.", "anchors": ["src/graphblas/operations.hpp: eWiseMult", "src/graphblas/platforms/sequential/sparse_ewisemult.hpp", "src/graphblas/platforms/sequential/sparse_helpers.hpp: ewise_and"]}
{"id": "C15", "title": "apply maps the operator over stored elements", "statement": "After apply (unary operator, or binary operator with a bound first or second scalar), each writable position holds f(a) exactly where the input is stored, accumulated and masked; for vectors, matrices and transposed matrices.", "quantifier": "every shape, content, operator, accumulator, mask, output control", "why_tests_cant": "Arbitrary contents and masks.", "anchors": ["src/graphblas/operations.hpp: apply", "src/graphblas/platforms/sequential/sparse_apply.hpp"]}
{"id": "C16", "title": "reduce matrix to vector folds each row (column) in order", "statement": "After reduce of a matrix (or its transpose) to a vector, each writable w(i) holds the left fold with op of row (column) i in ascending index order, absent for an empty row, accumulated and masked.", "quantifier": "every shape, content, operator (associative or not), accumulator, mask, output control", "why_tests_cant": "Arbitrary contents.", "anchors": ["src/graphblas/operations.hpp: reduce", "src/graphblas/platforms/sequential/sparse_reduce.hpp", "src/graphblas/platforms/sequential/sparse_helpers.hpp: reduction, xpey"]}
{"id": "C17", "title": "reduce to scalar folds all stored elements", "statement": "Reducing a vector or a matrix (or its transpose) to a scalar yields the fold with the monoid operator of all stored values (the identity if none is stored), accumulated with the old scalar if an accumulator is given.", "quantifier": "every shape and content, every lawful monoid", "why_tests_cant": "Arbitrary contents; the fold nesting differs from the specification.", "anchors": ["src/graphblas/operations.hpp: reduce", "src/graphblas/platforms/sequential/sparse_reduce.hpp"]}
{"id": "C18", "title": "extract selects the indexed subvector or submatrix", "statement": "After extract, each writable w(k) holds u(indices[k]) (C(r,c) holds A(row_indices[r], col_indices[c]); w(k) holds A(row_indices[k], col)), absent when the source is absent, accumulated and masked; index lists may repeat and be in any order, or be AllIndices; the matrix may be transposed.", "quantifier": "every content, every in-range index list, mask, accumulator, output control", "why_tests_cant": "Arbitrary index lists with repetition.", "anchors": ["src/graphblas/operations.hpp: extract", "src/graphblas/platforms/sequential/sparse_extract.hpp"]}
{"id": "C19", "title": "assign writes the source at the listed positions only", "statement": "After assign of a vector or matrix (or of a vector to a row or column), before masking, each listed position holds the source value for that position (absence deletes it when no accumulator is given, and keeps it with one) and each unlisted position keeps its old content; then the mask applies over the whole output per GraphBLAS.", "quantifier": "every content, every duplicate-free in-range index list in any order, mask, accumulator, output control", "why_tests_cant": "Arbitrary index permutations and contents.", "anchors": ["src/graphblas/operations.hpp: assign", "src/graphblas/platforms/sequential/sparse_assign.hpp: compute_outin_mapping, vectorExpand, matrixExpand, assign", "src/graphblas/platforms/sequential/sparse_helpers.hpp: ewise_or_stencil_opt_accum"]}
{"id": "C20", "title": "assign of a constant writes the constant at the listed positions only", "statement": "After assign of a scalar to a vector or matrix region, before masking, each listed position holds the constant (accumulated with the old value if an accumulator is given) and each unlisted position keeps its content; then the mask applies over the whole output.", "quantifier": "every content, every in-range index list (any order, with or without repeats) or AllIndices, mask, accumulator, output control", "why_tests_cant": "Arbitrary index lists.", "anchors": ["src/graphblas/operations.hpp: assign (constant)", "src/graphblas/platforms/sequential/sparse_assign.hpp: assignConstant, assign_constant"]}
{"id": "C21", "title": "transpose writes the transposed matrix", "statement": "After transpose(C, M, accum, A), each writable C(i,j) is A(j,i), accumulated and masked; transposing twice into empty matrices gives a matrix equal to A.", "quantifier": "every shape, content, accumulator, mask, output control", "why_tests_cant": "Arbitrary contents.", "anchors": ["src/graphblas/operations.hpp: transpose", "src/graphblas/platforms/sequential/sparse_transpose.hpp"]}
{"id": "C22", "title": "kronecker computes the Kronecker product", "statement": "After kronecker, each writable C(i,j) is mult(A(i div rB, j div cB), B(i mod rB, j mod cB)) where both are stored, accumulated and masked, for plain and transposed operands; a C whose shape is not exactly the product shape is rejected.", "quantifier": "every shape, content, operator, accumulator, mask, output control", "why_tests_cant": "Index arithmetic over arbitrary shapes, including shapes whose product overflows the index type.", "anchors": ["src/graphblas/operations.hpp: kronecker", "src/graphblas/platforms/sequential/sparse_kronecker.hpp", "src/graphblas/detail/checks.hpp"]}
{"id": "C23", "title": "Masked-out positions are never touched under MERGE and always deleted under REPLACE", "statement": "For every operation that takes a mask, a position the mask does not allow holds after the call exactly its old content under MERGE, and nothing under REPLACE.", "quantifier": "every masked operation, every mask kind and content, every input", "why_tests_cant": "The mask content and the output content range over all patterns.", "anchors": ["src/graphblas/platforms/sequential/sparse_helpers.hpp: write_with_opt_mask, write_with_opt_mask_1D"]}
{"id": "C24", "title": "Mask kinds mean what they say", "statement": "A plain mask allows a position iff it stores a true value there; structure(M) iff it stores any value; complement(M) and complement(structure(M)) allow exactly the positions the original does not; NoMask allows everything. Complementing an empty mask allows everything.", "quantifier": "every mask content, vector and matrix, every position", "why_tests_cant": "Stored-false entries, empty rows and boundary positions combine arbitrarily.", "anchors": ["src/graphblas/platforms/sequential/sparse_helpers.hpp: get_structure_row, get_complement_row, get_structural_complement_row, write_with_opt_mask", "src/graphblas/ComplementView.hpp", "src/graphblas/StructureView.hpp"]}
{"id": "C25", "title": "Accumulation combines old and new in that order and keeps unmatched elements", "statement": "With an accumulator, for every operation the value written is accum(old, new) where both exist, the old value where only it exists, the new one where only it exists; without one, the old content of writable positions is discarded.", "quantifier": "every operation, content, accumulator function (no law assumed)", "why_tests_cant": "Arbitrary overlaps; argument order matters for non-commutative functions.", "anchors": ["src/graphblas/platforms/sequential/sparse_helpers.hpp: ewise_or_opt_accum, ewise_or_opt_accum_1D, opt_accum_scalar"]}
{"id": "C26", "title": "A shape mismatch throws and changes nothing", "statement": "Each operation throws DimensionException (InvalidIndexException for a column or row number out of range) exactly when the shapes of output, mask and inputs (and lengths of index lists) violate the GraphBLAS rules for that operation, and then every container is unchanged.", "quantifier": "every operation and every combination of shapes", "why_tests_cant": "All combinations of shapes, including degenerate ones.", "anchors": ["src/graphblas/operations.hpp", "src/graphblas/detail/checks.hpp"]}
{"id": "C27", "title": "An out-of-range index in extract or assign throws before any change", "statement": "extract and assign with an index list containing an index not below the corresponding dimension throw IndexOutOfBoundsException and leave the output unchanged.", "quantifier": "every index list and container", "why_tests_cant": "The bad index may be anywhere in a list of any length.", "anchors": ["src/graphblas/platforms/sequential/sparse_helpers.hpp: check_index_array_content", "src/graphblas/platforms/sequential/sparse_extract.hpp", "src/graphblas/platforms/sequential/sparse_assign.hpp"]}
{"id": "C28", "title": "Both CPU backends give the same mxm result", "statement": "mxm in the optimized_sequential backend leaves C with exactly the same stored elements as mxm in the sequential backend, for every operand transposition, mask kind, accumulator and output control.", "quantifier": "every shape, content, semiring, accumulator, mask, output control, old content of C", "why_tests_cant": "48 different specialised code paths with short circuits; differences depend on empty rows and stale content.", "anchors": ["src/graphblas/platforms/optimized_sequential/sparse_mxm.hpp", "src/graphblas/platforms/optimized_sequential/sparse_mxm_AB.hpp", "src/graphblas/platforms/optimized_sequential/sparse_mxm_ABT.hpp", "src/graphblas/platforms/optimized_sequential/sparse_mxm_ATB.hpp", "src/graphblas/platforms/optimized_sequential/sparse_mxm_ATBT.hpp"]}
{"id": "C29", "title": "The output may be the same object as an input or the mask", "statement": "Calling mxm with C the same object as A, as B, as both or as the mask M leaves in C the same result as calling it with distinct copies.", "quantifier": "every shape, content, semiring, accumulator, mask, both backends", "why_tests_cant": "In-place row updates interact with later reads; depends on the whole pattern.", "anchors": ["src/graphblas/platforms/sequential/sparse_mxm.hpp", "src/graphblas/platforms/optimized_sequential/sparse_mxm_AB.hpp", "src/graphblas/platforms/optimized_sequential/sparse_mxm_ABT.hpp", "src/graphblas/platforms/optimized_sequential/sparse_mxm_ATB.hpp", "src/graphblas/platforms/optimized_sequential/sparse_mxm_ATBT.hpp"]}
{"id": "C30", "title": "Masked multiply kernels agree with multiply-then-mask", "statement": "Fusing the mask into the multiply (computing only unmasked positions) gives the same result as computing the full product, accumulating, and then applying the mask.", "quantifier": "every row content, mask content, complement and structure flag, semiring, accumulator", "why_tests_cant": "Iterator-advance logic over arbitrary interleavings of mask and data indices.", "anchors": ["src/graphblas/platforms/sequential/sparse_helpers.hpp: masked_axpy, masked_accum, masked_merge, advance_and_check_mask_iterator", "src/graphblas/platforms/optimized_sequential/sparse_mxm_AB.hpp"]}
{"id": "C31", "title": "Predefined monoids are monoids and predefined semirings have the advertised operators", "statement": "For the integer and bool scalar types, each predefined monoid's operator is associative with the advertised identity, and each predefined semiring combines the advertised monoid and multiply.", "quantifier": "every triple of values of the scalar type, including wrap-around and extreme values", "why_tests_cant": "2^64 values per operand.", "anchors": ["src/graphblas/algebra.hpp"]}
{"id": "C32", "title": "Level BFS returns hop distances", "statement": "bfs_level, bfs_level_masked and bfs_level_masked_v2, on a square graph whose stored edges are all true, with empty levels and scalar types that can represent the number of vertices, terminate with levels(v) = 1 + the minimum number of edges from the source(s) to v for every reachable v and nothing stored for unreachable v.", "quantifier": "every graph, every source", "why_tests_cant": "Every graph of every size; termination is a liveness property.", "anchors": ["src/algorithms/bfs.hpp: bfs_level, bfs_level_masked, bfs_level_masked_v2", "src/algorithms/appendix_algorithms.hpp: bfs_level_appendixB1, bfs_level_appendixB2"]}
{"id": "C33", "title": "Parent BFS returns a valid BFS tree", "statement": "bfs(graph, source, parents) terminates; parents(v) is stored exactly for the vertices reachable from the source; parents(source) = source; for every other reached v, parents(v) is the smallest-numbered in-neighbour of v among the vertices one hop closer to the source.", "quantifier": "every graph, every source", "why_tests_cant": "Every graph of every size.", "anchors": ["src/algorithms/bfs.hpp: bfs", "src/algorithms/appendix_algorithms.hpp: bfs_parent_appendixB3"]}
{"id": "C34", "title": "SSSP returns shortest path lengths", "statement": "sssp on a graph without negative cycles reachable from the source returns true and dist(v) is the minimum weight over all walks from the source to v, absent for unreachable v (weights are exact integers, no overflow).", "quantifier": "every graph with integer weights, every source", "why_tests_cant": "Every graph and weight assignment.", "anchors": ["src/algorithms/sssp.hpp: sssp"]}
{"id": "C35", "title": "SSSP reports a reachable negative cycle", "statement": "sssp returns false if and only if a cycle of negative total weight is reachable from the source (weights are exact integers: no walk from the source of at most as many edges as there are vertices overflows).", "quantifier": "every graph with integer weights, every source", "why_tests_cant": "Every graph and weight assignment.", "anchors": ["src/algorithms/sssp.hpp: sssp"]}
{"id": "C36", "title": "Filtered SSSP agrees with SSSP", "statement": "filtered_sssp returns the same distances as the shortest path definition on every graph without negative cycles (weights are exact integers, no overflow).", "quantifier": "every graph with integer weights, every source", "why_tests_cant": "Every graph and weight assignment, including zero weights.", "anchors": ["src/algorithms/sssp.hpp: filtered_sssp"]}
{"id": "C37", "title": "APSP returns all-pairs shortest path lengths", "statement": "apsp on a graph without negative cycles returns the matrix whose (u,v) entry is the minimum weight over all walks (including the empty one when u = v) from u to v, absent when v is unreachable (weights are exact integers, no overflow).", "quantifier": "every graph with integer weights", "why_tests_cant": "Every graph and weight assignment.", "anchors": ["src/algorithms/apsp.hpp: apsp", "src/graphblas/matrix_utils.hpp: scaled_identity"]}
{"id": "C38", "title": "Triangle counting counts triangles", "statement": "triangle_count, triangle_count_masked (both forms), triangle_count_newGBTL and the appendix variant return the number of unordered vertex triples that are pairwise adjacent, on every undirected loop-free 0/1 graph (or its split into L and U) whose counts the scalar type represents.", "quantifier": "every undirected simple graph", "why_tests_cant": "Every graph.", "anchors": ["src/algorithms/triangle_count.hpp", "src/algorithms/appendix_algorithms.hpp: triangle_count_appendixB7", "src/graphblas/matrix_utils.hpp: split"]}
{"id": "C39", "title": "k_truss2 returns the k-truss", "statement": "k_truss2(A, k) terminates and returns the largest subgraph of the undirected graph A in which every edge is in at least k-2 triangles of the subgraph.", "quantifier": "every undirected simple graph and every k", "why_tests_cant": "Every graph and k; fixpoint termination.", "anchors": ["src/algorithms/k_truss.hpp: k_truss2"]}
{"id": "C40", "title": "mis returns a maximal independent set for every random sequence", "statement": "Whatever random numbers are drawn, whenever mis returns, the stored-true vertices of the result are pairwise non-adjacent and every other vertex has a neighbour in the set.", "quantifier": "every undirected graph, every sequence of random draws (ties included)", "why_tests_cant": "Random sequences are unbounded; tests fix a seed.", "anchors": ["src/algorithms/mis.hpp: mis", "src/algorithms/appendix_algorithms.hpp: mis_appendixB6"]}
{"id": "C41", "title": "split and diagonal helpers partition and place elements", "statement": "split(A,L,U) into empty L and U puts every stored element with row < column in U and every other one in L, with its value and nothing else; diag(v) stores v(i) at (i,i) and nothing else; scaled_identity(n,x) stores x at every (i,i) and nothing else.", "quantifier": "every matrix, vector and size", "why_tests_cant": "Every content.", "anchors": ["src/graphblas/matrix_utils.hpp: split, diag, scaled_identity"]}
{"id": "C42", "title": "Constructors store exactly what they are given", "statement": "Constructing a Vector or Matrix from dense data stores every element (or every element different from the given zero) and nothing else; constructing with a size stores nothing; constructing a Vector with a size and a value stores that value everywhere; assigning dense data to a Vector of that size stores every element and forgets the old ones; constructing the backend's vector from arrays of indices and values stores the last value given for each index; nvals() agrees in each case.", "quantifier": "every size and content", "why_tests_cant": "Every content.", "anchors": ["src/graphblas/platforms/sequential/BitmapSparseVector.hpp: constructors", "src/graphblas/platforms/sequential/LilSparseMatrix.hpp: constructors"]}
{"id": "C43", "title": "Vertex degree metrics count stored edges", "statement": "vertex_in_degree(G,v) is the number of stored elements of column v, vertex_out_degree(G,v) that of row v, vertex_degree their sum; an out-of-range vertex throws DimensionException.", "quantifier": "every square graph and vertex", "why_tests_cant": "Every graph.", "anchors": ["src/algorithms/metrics.hpp: vertex_in_degree, vertex_out_degree, vertex_degree"]}
{"id": "C44", "title": "Semirings documented as true semirings distribute", "statement": "For every predefined semiring that the source documents as a true semiring on a class of integer types (arithmetic, logical, and-or, xor-and, xnor-or, min-max, max-min, max-plus, min-times, max-times, plus-min), the multiplication distributes over the addition from both sides.", "quantifier": "every triple of values of the scalar type", "why_tests_cant": "2^64 values per operand; the exceptions are at the extremes.", "anchors": ["src/graphblas/algebra.hpp: GEN_GRAPHBLAS_SEMIRING"]}
{"id": "C45", "title": "Predefined operators compute what their names say", "statement": "Each predefined unary and binary operator on bool and integer types, with any combination of argument and result types, returns the exact mathematical result whenever the operands survive the usual arithmetic conversions and the result is representable.", "quantifier": "every combination of types and every pair of values", "why_tests_cant": "729 type combinations times 2^128 pairs of values.", "anchors": ["src/graphblas/algebra.hpp: unary and binary operators"]}
{"id": "C46", "title": "Batch SSSP agrees with SSSP for every row of sources", "statement": "batch_sssp, given a matrix of starting distances with one row per batch member, returns true exactly when no row can reach a negative cycle, and then row s of the result holds the minimum weight over all walks starting from the stored entries of row s (absent for unreachable vertices); no row influences another.", "quantifier": "every graph with integer weights, every matrix of starting distances", "why_tests_cant": "Every graph, weight assignment and batch.", "anchors": ["src/algorithms/sssp.hpp: batch_sssp"]}
{"id": "C47", "title": "Distance metrics are those of the shortest walks", "statement": "On a square graph without negative cycles whose walk weights fit the scalar type: graph_distance fills its result with the distance from the start vertex to every reachable vertex; graph_distance_matrix gives the distance from every vertex to every vertex; vertex_eccentricity is the largest distance from the vertex, graph_radius the smallest and graph_diameter the largest eccentricity of any vertex; closeness_centrality is the reciprocal of the sum of the distances to the vertex.", "quantifier": "every graph with integer weights, every vertex", "why_tests_cant": "Every graph and weight assignment; the metric is an extremum over all walks.", "anchors": ["src/algorithms/metrics.hpp: graph_distance, graph_distance_matrix, vertex_eccentricity, graph_radius, graph_diameter, closeness_centrality"]}
{"id": "C48", "title": "Batch level BFS gives hop distances per row", "statement": "batch_bfs_level_masked and the matrix overload of bfs_level return, and in row r of the levels every vertex reachable from the stored entries of row r of the wavefronts holds one plus its hop distance from them; unreachable vertices hold nothing; rows do not influence each other. batch_bfs_level_masked rejects mismatched shapes.", "quantifier": "every graph with true edges, every matrix of wavefronts", "why_tests_cant": "Every graph, batch and number of rounds.", "anchors": ["src/algorithms/bfs.hpp: batch_bfs_level_masked, bfs_level"]}
{"id": "C49", "title": "Wavefront BFS gives valid parents", "statement": "bfs(graph, wavefront, parent_list) and bfs_batch return; the vertices stored in (a row of) the wavefront are their own parents, every other reachable vertex has the smallest-numbered in-neighbour among the vertices one hop closer as parent, and unreachable vertices have none.", "quantifier": "every graph, every wavefront", "why_tests_cant": "Every graph, set of roots and scalar type; narrow scalar types break it.", "anchors": ["src/algorithms/bfs.hpp: bfs, bfs_batch"]}
{"id": "C50", "title": "mst returns a minimum spanning tree", "statement": "On a connected undirected graph, mst returns the weight of a minimum spanning tree and mst_parents holds such a tree: n-1 edges, one from every vertex but 0 to its parent, connecting all vertices, with no spanning tree of smaller weight. If some vertex cannot be reached from vertex 0 it throws PanicException; mismatched shapes throw DimensionException.", "quantifier": "every weighted undirected graph, weights of either sign, previous content of mst_parents", "why_tests_cant": "Minimality is over all spanning trees, of which there are exponentially many, for every graph.", "anchors": ["src/algorithms/mst.hpp: mst, argmin, MSTMin, MSTPlus"]}
{"id": "C51", "title": "maxflow_push_relabel returns the maximum flow", "statement": "maxflow_push_relabel(capacity, source, sink) terminates and returns the largest value of a flow from the source to the sink: there is a flow of that value within the capacities, conserved at every other vertex, and no flow has a larger value. A source outside the matrix throws IndexOutOfBoundsException.", "quantifier": "every square matrix of capacities that are not negative (self-loops, antiparallel edges and stored zeros included), every source and sink that differ, every signed integer scalar type with room for the sum of the capacities and for 2n", "why_tests_cant": "Maximality is over all flows, for every network; termination is over every order in which vertices are discharged.", "anchors": ["src/algorithms/maxflow.hpp: maxflow_push_relabel, push, relabel, discharge, at"]}
{"id": "C52", "title": "maxflow_ford_fulk returns a flow's value, the maximum within its iteration limit", "statement": "maxflow_ford_fulk(graph, source, sink) terminates and returns the value of a flow from the source to the sink: one within the capacities and conserved at every other vertex. It is the largest value of a flow.", "quantifier": "every square matrix of capacities that are not negative, every source and sink that differ, every integer scalar type but bool, signed or unsigned, that holds the sum of the capacities", "why_tests_cant": "Termination, feasibility and maximality are over all networks and all flows; the network on which the iteration limit is hit has 25 edges and no test would find it by chance.", "anchors": ["src/algorithms/maxflow.hpp: maxflow_ford_fulk, maxflow_bfs"]}
{"id": "C53", "title": "k_truss returns the k-truss", "statement": "k_truss(E, k) terminates and returns the incidence matrix of the k-truss of the graph with incidence matrix E: the rows, in their order, of the edges of the largest subgraph each of whose edges is in at least k - 2 triangles of that subgraph.", "quantifier": "every graph without loops and repeated edges that has an edge, in every order and orientation of the edges, every k such that the scalar type holds k - 2, every integer scalar type that holds the number of vertices", "why_tests_cant": "The edges go in rounds, each a change of the matrix R by a product, and the number of rounds is not bounded; that the maintained R stays right and that nothing more is removed than necessary is a statement on all graphs.", "anchors": ["src/algorithms/k_truss.hpp: k_truss"]}
{"id": "C54", "title": "sssp_delta_step computes the shortest distances", "statement": "sssp_delta_step(graph, delta, src, paths) returns, and paths then holds the minimum weight of a walk from src for exactly the vertices that can be reached from src, whatever the bucket width delta and whatever paths held before.", "quantifier": "every square graph with weights that are not negative, every source vertex, every positive bucket width, every integer scalar type that holds the weight of as many edges as there are vertices plus the width", "why_tests_cant": "Two nested loops whose numbers of iterations depend on the weights; that no vertex is skipped when buckets are emptied and refilled is a statement on all graphs and all widths.", "anchors": ["src/algorithms/sssp.hpp: sssp_delta_step, SelectInRange"]}
{"id": "C55", "title": "The appendix breadth-first searches give hop distances and shortest-path parents", "statement": "bfs_level_appendixB1(v, A, src) and bfs_level_appendixB2(v, A, src), called with an empty v on a graph whose stored elements are true, return, and v then holds the hop distance from src plus one for exactly the vertices reachable from src. bfs_parent_appendixB3(parents, A, src) gives src itself as parent, and every other reachable vertex the smallest-numbered in-neighbour one hop closer to src, whatever parents held before. A source that is no vertex is refused with IndexOutOfBoundsException.", "quantifier": "every square graph whose stored elements are true, every source vertex, every level scalar type that represents the number of vertices", "why_tests_cant": "The do-while loop of B1 and B2 ends after a number of rounds that depends on the graph; distances of all vertices in all graphs cannot be enumerated.", "anchors": ["src/algorithms/appendix_algorithms.hpp: bfs_level_appendixB1, bfs_level_appendixB2, bfs_parent_appendixB3"]}
{"id": "C56", "title": "Batch betweenness centrality counts shortest paths", "statement": "vertex_betweenness_centrality_batch(A, s), _batch_alt and _batch_alt_trans, on a square graph whose stored elements are 1, return for every vertex v the sum over the sources in s (with repetitions) and over all targets t other than v of the fraction of the shortest paths from the source to t that visit v (nothing for the source itself). The values are in exact arithmetic. _batch_alt_trans_v2, documented to stop after 10 traversals, returns the same whenever no vertex is more than 10 edges from a source. An empty s or a graph that is not square is refused with DimensionException.", "quantifier": "every square graph of unit weights with loops and unreachable parts allowed, every non-empty list of source vertices, as long as no source has more than 2^31-1 shortest paths in total (they are counted in int32_t)", "why_tests_cant": "Shortest paths through a vertex grow exponentially with the graph, and the two phases of the algorithm meet only through the recurrence for dependencies; no sample of graphs covers it.", "anchors": ["src/algorithms/bc.hpp: vertex_betweenness_centrality_batch, vertex_betweenness_centrality_batch_alt, vertex_betweenness_centrality_batch_alt_trans, vertex_betweenness_centrality_batch_alt_trans_v2"]}
{"id": "C57", "title": "Vertex betweenness centrality of all vertices, and of a batch by the old version", "statement": "vertex_betweenness_centrality(A), on a square graph of floating-point ones, returns for every vertex v the sum over all sources s and targets t other than v of the fraction of the shortest paths from s to t that visit v (nothing for s itself), in exact arithmetic. vertex_betweenness_centrality_batch_old(A, s) returns the same sum over the sources in s only. A graph that is not square, and for the batch version an empty s, is refused with DimensionException.", "quantifier": "every non-empty square graph of unit weights, loops and unreachable parts included; for the batch version every non-empty list of sources with at most 2^31-1 shortest paths each", "why_tests_cant": "Fractions of shortest paths over all pairs of vertices; the code never forms a path. Any sample of graphs leaves other depths, counts and loops out.", "anchors": ["src/algorithms/bc.hpp: vertex_betweenness_centrality, vertex_betweenness_centrality_batch_old"]}
{"id": "C58", "title": "Betweenness centrality in the appendix, and with integer scalars", "statement": "BC_appendixB4(delta, A, src) adds to delta the dependency of every vertex on src; BC_update_appendixB5(delta, A, src) sets delta to the sum of the dependencies over the sources in src; and vertex_betweenness_centrality on an integer graph agrees with the floating-point version.", "quantifier": "every square graph of unit weights, every source or non-empty list of sources, every delta of the right size", "why_tests_cant": "The loops run as deep as the graph; whether a program is right for a second source, or for fewer sources than vertices, does not follow from runs on one test graph.", "anchors": ["src/algorithms/appendix_algorithms.hpp: BC_appendixB4, BC_update_appendixB5", "src/algorithms/bc.hpp: vertex_betweenness_centrality"]}
{"id": "C59", "title": "Edge betweenness centrality counts the shortest paths that use an edge", "statement": "edge_betweenness_centrality(A), on a square graph of ones, returns a matrix that stores, exactly for the edges (v, w) of the graph, the number of shortest paths between any two vertices that go from v directly to w. A graph that is not square is refused with DimensionException.", "quantifier": "every square graph of unit weights with a floating-point or an integer scalar type in which the number of all shortest paths fits", "why_tests_cant": "A count over all shortest paths between all pairs of vertices; the code never forms a path, and divides numbers of paths, which must always come out even in an integer type. A test graph shows a few depths and counts.", "anchors": ["src/algorithms/bc.hpp: edge_betweenness_centrality"]}
{"id": "C60", "title": "Normalising a matrix divides every element by the sum of its row or column", "statement": "normalize_rows(A) replaces every stored element of A by its quotient with the sum of its row, so that every row with elements sums to 1, and keeps the positions of the stored elements; normalize_cols(A) does the same for columns. A may have any shape.", "quantifier": "every matrix in which no row (column) with elements sums to zero, every scalar type", "why_tests_cant": "For every matrix and shape. The tests use square floating-point matrices only.", "anchors": ["src/graphblas/matrix_utils.hpp: normalize_rows, normalize_cols"]}
{"id": "C61", "title": "Page rank computes the textbook iteration", "statement": "page_rank(graph, rank, d, threshold, max_iters) leaves in rank, for every vertex, its rank after k rounds of the iteration r'(v) = d * sum over edges (u, v) of r(u) * weight(u, v) / outweight(u) + (1 - d)/n from r = 1/n, where k is the first round with a mean squared change below the threshold, or max_iters. The ranks sum to 1 if every vertex has an edge from it. With d < 1 and a positive threshold the iteration stops. Wrong shapes are refused with DimensionException.", "quantifier": "every square graph with positive weights, damping factor between 0 and 1, threshold and limit", "why_tests_cant": "For every graph, and for the number of rounds the loop makes. The graphs of the tests have an edge to every vertex, or isolated vertices.", "anchors": ["src/algorithms/page_rank.hpp: page_rank", "src/graphblas/matrix_utils.hpp: normalize_rows"]}
{"id": "C62", "title": "Peer-pressure clustering moves every vertex to the cluster with the most votes until nothing changes", "statement": "peer_pressure_cluster(graph, C, max_iters) performs rounds: every vertex votes, with its outgoing weights normalised to sum 1, for its neighbours to be in its cluster, and every vertex moves to the cluster with the most votes, the one with the highest number among equals. It stops at the first round that changes nothing, or after max_iters rounds. In the result every vertex is in exactly one cluster. Without C every vertex starts as its own cluster; peer_pressure_cluster_v2 does not normalise. Wrong shapes are refused with DimensionException.", "quantifier": "every square graph, initial clustering and limit", "why_tests_cant": "For every graph, clustering and number of rounds. The tests run three graphs and print the result.", "anchors": ["src/algorithms/cluster.hpp: peer_pressure_cluster, peer_pressure_cluster_v2"]}
{"id": "C63", "title": "Cluster assignments name the cluster with the greatest value of each vertex", "statement": "get_cluster_assignments(M) and get_cluster_assignments_v2(M), for the matrix M of a clustering with clusters as rows and vertices as columns, give for every vertex the row index of the maximum value in its column, and no cluster (the greatest index; no entry) if the column is empty.", "quantifier": "every matrix, of any shape and values", "why_tests_cant": "For every matrix. The tests print the assignments of square matrices.", "anchors": ["src/algorithms/cluster.hpp: get_cluster_assignments, get_cluster_assignments_v2"]}
{"id": "C64", "title": "Markov clustering alternates expansion and inflation", "statement": "markov_cluster(graph, e, r, threshold, max_iters) starts from the graph with normalised columns; in a round it computes the e-th matrix power, raises every element to the power r and normalises the columns; it returns the matrix after the first round with a mean squared change below the threshold, or after max_iters rounds. Every column of the result that is not empty sums to 1. A graph that is not square is refused with DimensionException.", "quantifier": "every square graph with positive weights, e and r from 1, threshold and limit", "why_tests_cant": "For every graph and number of rounds. The tests run a few graphs and print the result.", "anchors": ["src/algorithms/cluster.hpp: markov_cluster", "src/graphblas/matrix_utils.hpp: normalize_cols"]}
{"id": "C65", "title": "Louvain clustering returns a local maximum of the modularity", "statement": "louvain_cluster and louvain_cluster_masked start with every vertex in a cluster of its own and, in sweeps over the vertices, move each vertex to the cluster with the greatest modularity, until a sweep changes nothing. They return a matrix with one true element in each row, in the column of the vertex's cluster, of a clustering from which no move of one vertex increases the modularity; after max_iters sweeps they throw the number of sweeps instead. They always end. A graph that is not square is refused with DimensionException.", "quantifier": "every square graph with a positive sum of weights, every sequence of random numbers and every limit", "why_tests_cant": "For every graph and every sequence of random numbers. The tests run a few graphs with one seed.", "anchors": ["src/algorithms/cluster_louvain.hpp: louvain_cluster", "src/algorithms/cluster_louvain.hpp: louvain_cluster_masked"]}
{"id": "C66", "title": "Cluster assignments of a Louvain clustering", "statement": "get_louvain_cluster_assignments(S), for a matrix with a row for each vertex and a column for each cluster, returns for each vertex its cluster: the column of the element in its row, and no entry if there is none.", "quantifier": "every matrix of bools", "why_tests_cant": "For every matrix. The tests use the result of clustering a few graphs.", "anchors": ["src/algorithms/cluster_louvain.hpp: get_louvain_cluster_assignments"]}
{"id": "C67", "title": "Whole programs compute their mathematical meaning", "statement": "A program that declares, fills, copies, compares, reads and combines matrices and vectors with the library, in any order, with any of its variables as operands, mask and output of a call (the same variable in several places included), and with control flow that depends on what calls returned or threw, is told by every call, and ends with its variables holding, exactly what it would on a machine whose variables are shapes with partial functions and whose calls follow the GraphBLAS definitions. No call is undefined, none throws in the middle of a write. A call changes no variable but its output; a program's answers depend on the contents of its objects only, not on how these are represented.", "quantifier": "every program over any number of variables of any scalar types, every consistent initial content", "why_tests_cant": "Programs, sharings of variables, control flow on exceptions and contents are unbounded; a test runs one program.", "anchors": ["src/graphblas/operations.hpp", "src/graphblas/Matrix.hpp", "src/graphblas/Vector.hpp", "src/graphblas/platforms/sequential"]}
{"id": "C68", "title": "Index ranges select slices and blocks", "statement": "IndexSequenceRange(b, e) with b <= e, whether iterated from begin() to end() or indexed from 0 to size()-1, lists b, b+1, ..., e-1, and is empty exactly when b = e. extract with ranges returns the slice or block that starts at b; assign with ranges, of a vector, matrix or constant, writes that slice or block and nothing else; the same holds of extracting from and assigning to a single column or row. A range with b > e, which the constructor does not refuse, is refused by every extract and assign of vectors, matrices, columns and rows, with the output unchanged.", "quantifier": "every 64-bit b and e, every shape, content, mask, accumulator and output control", "why_tests_cant": "Index arithmetic modulo 2^64 over all ranges and all contents.", "anchors": ["src/graphblas/indices.hpp: IndexGenerator", "src/graphblas/indices.hpp: IndexSequenceRange", "src/graphblas/operations.hpp: extract", "src/graphblas/operations.hpp: assign"]}
{"id": "C69", "title": "No call accesses memory outside a container", "statement": "Whatever calls were made before, in whatever order, with whatever arguments, operators, index lists and exceptions, a call of the library returns or throws one of its documented exceptions before it changes its output: it neither reads nor writes outside the arrays of a container, nor is it interrupted while it writes the output. That includes calls on objects that earlier calls left with a wrong element count, unsorted rows or repeated indices. What is read from an object lies in its shape.", "quantifier": "every program, and every state of its objects in which array lengths agree with shapes and element positions lie in them", "why_tests_cant": "All sequences of calls over all objects, including the states that are reached only through misuse.", "anchors": ["src/graphblas/operations.hpp", "src/graphblas/platforms/optimized_sequential/sparse_mxm.hpp", "src/graphblas/platforms/sequential/LilSparseMatrix.hpp: LilSparseMatrix", "src/graphblas/platforms/sequential/BitmapSparseVector.hpp: BitmapSparseVector", "src/graphblas/platforms/sequential/sparse_helpers.hpp"]}
{"id": "C70", "title": "Products obey the laws of algebra across calls", "statement": "Expressions over several calls that a semiring makes equal give equal results: (AB)C and A(BC) are the same matrix, products distribute over eWiseAdd on both sides, the transpose of a product is the product of the transposes in the opposite order (with views or with transposed copies), A(Bu) = (AB)u, (uA)B = u(AB), Au = u(A transposed), A(u+v) = Au+Av, column j of AB is A times column j of B, the scaled identity is a unit, and reducing rows is multiplying by a vector of units. The intermediate results may be written into any containers of the right shape, with either output mode.", "quantifier": "all shapes, contents, operand orientations, intermediate containers and operators that satisfy the laws", "why_tests_cant": "Equalities between compositions of calls over all matrices and all operators.", "anchors": ["src/graphblas/operations.hpp: mxm, mxv, vxm, eWiseAdd, transpose, extract, reduce", "src/graphblas/matrix_utils.hpp: scaled_identity", "src/graphblas/algebra.hpp: GEN_GRAPHBLAS_SEMIRING"]}
{"id": "C71", "title": "Element-wise operations, apply, transpose and reduce obey their algebraic laws across calls", "statement": "eWiseAdd and eWiseMult are associative, commutative and idempotent when the operator is, on matrices (with any transposed operands) and on vectors; eWiseMult distributes over eWiseAdd; two applies are one apply of the composition, apply of the identity copies; a function that is a homomorphism of the operator may be applied before or after; transposing commutes with eWiseAdd, eWiseMult and apply; reducing the rows of a sum is the sum of the reductions; reducing to a vector and then to a scalar is reducing to a scalar, by rows or by columns.", "quantifier": "all shapes, contents, operand orientations, intermediate containers, output modes and operators that satisfy the laws", "why_tests_cant": "Equalities between compositions of calls over all containers and all operators.", "anchors": ["src/graphblas/operations.hpp: eWiseAdd, eWiseMult, apply, transpose, reduce"]}
{"id": "C72", "title": "Masks and accumulators can be split off a call", "statement": "A masked call in merge mode followed by the same call under the complemented mask is the unmasked call; the results under a mask and under its complement in replace mode are disjoint and their union is the unmasked result; a masked call is the unmasked call followed by a masked copy; an accumulating call is the plain call followed by eWiseAdd with the old output; repeating a call without accumulator, or with an associative idempotent accumulator, changes nothing.", "quantifier": "every operation, all operands it accepts, all four kinds of mask, both output modes, all accumulators and element types", "why_tests_cant": "Equalities between sequences of calls for every operation and mask.", "anchors": ["src/graphblas/operations.hpp: all operations taking a mask and an accumulator", "src/graphblas/detail: mask handling", "src/graphblas/Matrix.hpp: complement, structure views"]}
{"id": "C73", "title": "The Kronecker product obeys its algebraic laws", "statement": "(A kron B)(C kron D) = AC kron BD for a semiring with a commutative multiplication; the product is associative; its transpose is the product of the transposes; it distributes over eWiseAdd on both sides; the scaled identity of order one is a unit.", "quantifier": "all shapes whose products fit the index type, contents, operand orientations, intermediate containers and operators that satisfy the laws", "why_tests_cant": "Equalities between compositions of calls over all matrices.", "anchors": ["src/graphblas/operations.hpp: kronecker, mxm, eWiseAdd, transpose", "src/graphblas/matrix_utils.hpp: scaled_identity"]}
{"id": "C74", "title": "extract and assign obey their laws across calls", "statement": "Extracting what was assigned gives the source back, and assigning back what was extracted changes nothing, when no index is repeated; extracting from an extract is one extraction with the indices composed, so permuting and permuting back is the identity; extracting or assigning with AllIndices copies; extracting from a transposed view is transposing the extract; rows and columns of a product are rows of the one factor times columns of the other; extracting commutes with eWiseAdd, eWiseMult and apply; assignments to selections with no row or no column in common commute, and of two assignments to the same place the last wins.", "quantifier": "all shapes, contents, index lists or AllIndices, intermediate containers and output modes", "why_tests_cant": "Equalities between compositions of calls over all containers and index lists.", "anchors": ["src/graphblas/operations.hpp: extract, assign, mxm, eWiseAdd, eWiseMult, apply, transpose"]}
{"id": "C75", "title": "extractTuples into arrays of nvals() elements fills exactly those arrays", "statement": "extractTuples called with arrays of at least nvals() elements stays inside them, leaves every stored element with its index exactly once and in ascending order in the first nvals() places, and does not touch the rest; building a container from arrays of exactly nvals() elements filled this way gives an equal container.", "quantifier": "all matrices and vectors, contents, array lengths, earlier contents of the arrays and element types of the arrays", "why_tests_cant": "Writes through the caller's iterators for every content and array length.", "anchors": ["src/graphblas/platforms/sequential/BitmapSparseVector.hpp: extractTuples", "src/graphblas/platforms/sequential/LilSparseMatrix.hpp: extractTuples", "src/graphblas/Matrix.hpp: extractTuples", "src/graphblas/Vector.hpp: extractTuples", "src/graphblas/matrix_utils.hpp: diag"]}
{"id": "C76", "title": "Printing a container writes its whole content, and the text determines it", "statement": "operator<< of a matrix or vector writes one line with the shape and the number of stored elements, and then what is at every position in order, separated by a comma and a blank, with a mark for positions without an element; printing is defined for every container; two containers of the same type that print the same have the same shape and the same stored elements.", "quantifier": "all matrices and vectors, contents, shapes and element types", "why_tests_cant": "Uniqueness of the text over all contents.", "anchors": ["src/graphblas/platforms/sequential/BitmapSparseVector.hpp: printInfo", "src/graphblas/platforms/sequential/LilSparseMatrix.hpp: printInfo", "src/graphblas/Matrix.hpp: printInfo, operator<<", "src/graphblas/Vector.hpp: printInfo, operator<<"]}
{"id": "C77", "title": "Threads that share containers for reading only do not affect each other, whatever the schedule", "statement": "Any number of threads call the library at the same time, without locks, and every container is either only read by all threads or used by one thread only. Then, whatever the schedule and however the calls overlap, no call becomes undefined, every thread gets the results and exceptions it gets when it runs alone, its containers hold what they hold then, and every other container is unchanged; no schedule gets stuck. A call looks at and changes only the containers passed to it.", "quantifier": "all programs of all threads, any number of threads, all schedules and overlaps of calls, all contents", "why_tests_cant": "Quantifies over schedules and over the intermediate contents that other threads may see.", "anchors": ["src/graphblas/operations.hpp", "src/graphblas/platforms/optimized_sequential/sparse_mxm.hpp", "src/graphblas/Matrix.hpp", "src/graphblas/Vector.hpp", "src/graphblas/platforms/sequential/LilSparseMatrix.hpp", "src/graphblas/platforms/sequential/BitmapSparseVector.hpp"]}
{"id": "C78", "title": "Counting triangles does not depend on the numbering of the vertices, and the demo program prints the right count", "statement": "Renumbering the vertices of an undirected graph changes none of the triangle counts, and the variants that take half of the adjacency matrix may be given that half with its rows and columns permuted, so that it is no longer triangular. The triangle counting demo, given a file that lists every edge in both directions, in any order, with repetitions and loops, prints the number of triangles of the graph five times, whatever order the sort gives to vertices of equal degree.", "quantifier": "all graphs, all renumberings, all edge lists, all sorts that keep their contract", "why_tests_cant": "Quantifies over all renumberings of all graphs and over all edge lists.", "anchors": ["src/demo/triangle_count_demo.cpp", "src/algorithms/triangle_count.hpp triangle_count, triangle_count_masked, triangle_count_masked_noT, triangle_count_newGBTL", "src/algorithms/appendix_algorithms.hpp triangle_count_appendixB7"]}
{"id": "C79", "title": "The triangle counting demo describes its file: rows, nodes and degrees", "statement": "The demo prints the number of rows of the file, the number of nodes, and every vertex with its degree in order of decreasing degree, and renumbers the vertices in that order; an empty file is handled.", "quantifier": "all edge lists, all sorts that keep their contract", "why_tests_cant": "Quantifies over all files.", "anchors": ["src/demo/triangle_count_demo.cpp"]}
{"id": "C80", "title": "Algorithms that answer the same question give the same answer", "statement": "The five level searches from one vertex give the same levels; a row of a batch search is the single search of that row; a row of batch_sssp is sssp from that row; a row of apsp is sssp from that vertex; sssp_delta_step is sssp, and so is filtered_sssp; the level of a vertex is its distance plus 1 when all weights are 1; the two maximum flow algorithms give the same flow value; k_truss of the incidence matrix and k_truss2 of the adjacency matrix select the same edges.", "quantifier": "all graphs, sources, batches, scalar types with room for the distances", "why_tests_cant": "Quantifies over all graphs; every variant is a different program.", "anchors": ["src/algorithms/bfs.hpp bfs_level, bfs_level_masked, bfs_level_masked_v2, batch_bfs_level_masked", "src/algorithms/appendix_algorithms.hpp bfs_level_appendixB1, bfs_level_appendixB2", "src/algorithms/sssp.hpp sssp, batch_sssp, sssp_delta_step", "src/algorithms/apsp.hpp apsp", "src/algorithms/maxflow.hpp maxflow_push_relabel, maxflow_ford_fulk", "src/algorithms/k_truss.hpp k_truss, k_truss2"]}
{"id": "C81", "title": "Results of graph algorithms do not depend on the numbering of the vertices", "statement": "Renumbering the vertices of a graph renumbers the levels of a search and the distances of sssp in the same way, does not change the maximum flow value, and renumbers the edges of the k-truss in the same way.", "quantifier": "all graphs, all renumberings of the vertices, all sources and sinks", "why_tests_cant": "Quantifies over all renumberings of all graphs.", "anchors": ["src/algorithms/bfs.hpp bfs_level, bfs_level_masked, bfs_level_masked_v2, batch_bfs_level_masked", "src/algorithms/sssp.hpp sssp, batch_sssp, sssp_delta_step", "src/algorithms/maxflow.hpp maxflow_push_relabel, maxflow_ford_fulk", "src/algorithms/k_truss.hpp k_truss, k_truss2"]}
{"id": "C82", "title": "A program gives the same results on both CPU backends", "statement": "Compiling a program for the optimized_sequential backend instead of the sequential one changes neither what its calls return nor the contents of any of its matrices and vectors; a call changes nothing but its output.", "quantifier": "all programs of library calls, whose next call may depend on earlier results, all scalar types and operators, all initial contents", "why_tests_cant": "Quantifies over all programs, which choose calls depending on what earlier calls returned, and over all contents.", "anchors": ["src/graphblas/operations.hpp mxm", "src/graphblas/platforms/optimized_sequential/sparse_mxm.hpp mxm", "src/graphblas/platforms/optimized_sequential/sparse_mxm_AB.hpp", "src/graphblas/platforms/optimized_sequential/sparse_mxm_ABT.hpp", "src/graphblas/platforms/optimized_sequential/sparse_mxm_ATB.hpp", "src/graphblas/platforms/optimized_sequential/sparse_mxm_ATBT.hpp"]}
{"id": "C83", "title": "Algorithms give the same results on both CPU backends", "statement": "Compiling any of the algorithms that multiply matrices (triangle counting, all-pairs and batch shortest paths, batch and matrix breadth-first search, k-truss, peer pressure and Markov clustering, the betweenness centralities) for the optimized_sequential backend instead of the sequential one changes neither the result nor the way the call fails.", "quantifier": "all graphs (matrices of every shape and content), all sources, scalar types, limits and options", "why_tests_cant": "Quantifies over all graphs and all iterations of the algorithms; the two backends differ in every matrix product.", "anchors": ["src/algorithms/triangle_count.hpp triangle_count", "src/algorithms/sssp.hpp batch_sssp", "src/algorithms/apsp.hpp apsp", "src/algorithms/bfs.hpp batch_bfs_level_masked", "src/algorithms/k_truss.hpp k_truss", "src/algorithms/cluster.hpp peer_pressure_cluster markov_cluster", "src/algorithms/bc.hpp vertex_betweenness_centrality_batch edge_betweenness_centrality", "src/graphblas/platforms/optimized_sequential/sparse_mxm.hpp mxm"]}
{"id": "C84", "title": "Distances obey the laws of distances", "statement": "Whatever single-source and all-pairs shortest paths return is a solution of the shortest-path equations: no distance exceeds its starting value, no edge can shorten it, and every distance is attained by the source or by an edge. Lowering weights or adding edges makes no distance and no level larger; multiplying all weights multiplies the distances; all-pairs distances satisfy the triangle inequality with zero on the diagonal, reversing the edges transposes them, and those of an undirected graph are symmetric.", "quantifier": "all graphs with weights whose walks fit the scalar type and no negative cycle, all sources, all factors, all pairs of comparable graphs", "why_tests_cant": "Relates two or more runs on different graphs, for all graphs.", "anchors": ["src/algorithms/sssp.hpp sssp", "src/algorithms/bfs.hpp bfs_level", "src/algorithms/apsp.hpp apsp"]}
{"id": "C85", "title": "The maximum flow is the minimum cut", "statement": "The number maxflow returns is the smallest capacity of a set of edges whose removal separates the sink from the source. More capacity never lowers it, multiplying all capacities multiplies it, and reversing all edges and exchanging source and sink leaves it the same.", "quantifier": "all networks with non-negative capacities whose sum fits the scalar type, all pairs of source and sink, all factors", "why_tests_cant": "Quantifies over all cuts of all networks, and relates runs on different networks.", "anchors": ["src/algorithms/maxflow.hpp maxflow_push_relabel"]}
{"id": "C86", "title": "Trusses and triangles obey their laws", "statement": "Asking for a larger k, or removing edges from the graph, never adds edges to the k-truss. The k-truss of the k-truss, and of any graph between it and the graph, is the k-truss. Adding edges never loses a triangle, and the 3-truss has all the triangles of the graph.", "quantifier": "all undirected graphs without loops, all k, all pairs of a graph and a subgraph", "why_tests_cant": "Relates two runs on different graphs or parameters, for all graphs.", "anchors": ["src/algorithms/k_truss.hpp k_truss k_truss2", "src/algorithms/triangle_count.hpp triangle_count"]}
{"id": "C87", "title": "k-trusses can be computed from one another", "statement": "Applying k_truss to the result of k_truss with a smaller or equal k gives what applying it to the graph gives, the same edges in the same order. So the k-truss demo program, for any list of edges, prints the incidence matrix of the graph and of its 3-, 4-, 5- and 6-truss.", "quantifier": "all graphs without loops and repeated edges whose order fits the scalar type, all ascending sequences of k of any length, all edge lists of the demo", "why_tests_cant": "Quantifies over all graphs and all sequences of calls, each on the result of the one before.", "anchors": ["src/algorithms/k_truss.hpp k_truss", "src/demo/k_truss_demo.cpp main"]}
{"id": "C88", "title": "Betweenness centrality obeys its laws", "statement": "The results of the betweenness functions add up to the number of vertices strictly inside shortest paths, over all sources and targets; each lies between zero and n - 2 for each source; a result is positive exactly if the vertex is strictly inside a shortest path from a source, so it is zero without an edge in or without an edge out. The results for two batches of sources add up to the result for both together. Renumbering the vertices moves the results with them, and with all vertices as sources turning all edges round changes nothing. The results of edge_betweenness_centrality add up to the number of edges of all shortest paths, and turning the edges round turns the result round. For edges: every edge has at least 1 and at most the number of shortest paths between different vertices, and at every vertex the results of the edges that come in plus the number of shortest paths that start there equal the results of the edges that go out plus the number of shortest paths that end there.", "quantifier": "all graphs with stored ones, all non-empty source lists, all renumberings, all sizes", "why_tests_cant": "Quantifies over all graphs, and relates runs on different graphs and different batches.", "anchors": ["src/algorithms/bc.hpp vertex_betweenness_centrality_batch", "src/algorithms/bc.hpp vertex_betweenness_centrality", "src/algorithms/bc.hpp edge_betweenness_centrality"]}
{"id": "C89", "title": "The Louvain demo clusters the graph in its file", "statement": "louvain_demo, given a file with one row for each edge - source, destination and weight, vertices numbered from one - builds a matrix with a row and column for each vertex whose elements are exactly the edges of the file, prints the number of rows of the file, and prints for both variants of louvain_cluster a clustering of that graph that no single move improves.", "quantifier": "all files of rows of three numbers with at least one row, all vertex numbers from 1 to any n below 2^64, all weights, all sequences of random numbers", "why_tests_cant": "a test runs the demo on a few files; which files get a wrong graph, and that every file ending with a row for the first vertex ends with an exception, is a statement about all files", "anchors": ["src/demo/louvain_demo.cpp: main", "src/algorithms/cluster_louvain.hpp: louvain_cluster, louvain_cluster_masked, get_louvain_cluster_assignments", "src/graphblas/Matrix.hpp: build"]}
{"id": "C90", "title": "Page ranks depend only on the graph's shape and the proportions of its weights", "statement": "page_rank gives every vertex the same rank whatever the result vector held before the call; renumbering the vertices moves the ranks with them; multiplying the weights of all edges that leave a vertex by a positive number changes nothing; vertices to which the same edges lead get the same rank; a vertex without an edge to it gets (1 - d) / n; every rank is at least (1 - d) / n and all of them together are at most one; with damping factor zero, and on graphs in which the shares of the edges to each vertex add up to one, all ranks are 1 / n.", "quantifier": "all graphs, sizes, weights, result vectors, damping factors, thresholds and limits on the number of rounds, all renumberings", "why_tests_cant": "the relations link runs on pairs of graphs and must hold in every round until either run stops; a test compares a few ranks with expected numbers", "anchors": ["src/algorithms/page_rank.hpp: page_rank", "src/graphblas/utility.hpp: normalize_rows"]}
{"id": "C91", "title": "Minimum spanning trees obey their laws", "statement": "On connected undirected graphs, the weight that mst returns does not depend on the numbering of the vertices, and so not on the vertex at which it starts; replacing every weight w by a * w + b, with a not negative, changes it to a * weight + b * (n - 1); adding edges and lowering weights never increases it; of the edges across any cut, the returned tree has one of the lightest; and any two vertices connected by edges of weight at most b are connected by such edges of the returned tree.", "quantifier": "all connected undirected graphs, weights, renumberings, numbers a and b, sets of vertices and bounds, all scalar types in which sums of fewer than n weights do not overflow", "why_tests_cant": "the laws relate runs on different graphs and speak of all cuts and all paths; a test compares one tree with one expected tree", "anchors": ["src/algorithms/mst.hpp: mst"]}
{"id": "C92", "title": "Distance metrics obey their laws", "statement": "On every graph without negative cycles: distances, eccentricities, the radius and the diameter do not depend on the numbering of the vertices; 0 <= radius <= eccentricity of v <= diameter for every vertex v, and both bounds are reached; the distance matrix is 0 on the diagonal, obeys the triangle inequality, is nowhere above the weight of an edge, and is symmetric when the graph is; on connected undirected graphs the diameter is at most twice the radius; and closeness_centrality(v) is the sum of row v of the distance matrix.", "quantifier": "all graphs without negative cycles, renumberings and vertices, all scalar types in which walks of at most n edges do not overflow (and, for closeness, sums of n distances)", "why_tests_cant": "the laws relate different functions and runs on different graphs; a test compares one number with one expected number", "anchors": ["src/algorithms/metrics.hpp: graph_distance_matrix, vertex_eccentricity, graph_radius, graph_diameter, closeness_centrality"]}
{"id": "C93", "title": "Clusters do not join what no edge joins", "statement": "If no edge joins a set of vertices and the rest of the graph, then no clustering function puts a vertex of the set and a vertex of the rest in one cluster: peer_pressure_cluster (from its own start or from a clustering that keeps them apart), peer_pressure_cluster_v2, markov_cluster followed by get_cluster_assignments, louvain_cluster and louvain_cluster_masked. Multiplying the weights of the edges that leave a vertex by a number other than zero does not change the clusters of peer_pressure_cluster; multiplying the weights of the edges that lead to a vertex by a positive number does not change the result of markov_cluster.", "quantifier": "all graphs (for Markov and Louvain clustering, with positive weights; for Louvain clustering also undirected), all sets of vertices that no edge leaves or enters, all limits, thresholds and random numbers, all factors", "why_tests_cant": "the sets of vertices and the graphs range over everything; a test looks at the clusters of a few graphs", "anchors": ["src/algorithms/cluster.hpp: peer_pressure_cluster, peer_pressure_cluster_v2, markov_cluster, get_cluster_assignments", "src/algorithms/cluster_louvain.hpp: louvain_cluster, louvain_cluster_masked"]}
{"id": "C94", "title": "Maximal independent sets of different runs", "statement": "Whatever numbers are drawn, the set that mis or mis_appendixB6 returns obeys the laws of maximal independent sets: the size of the set plus the degree of any vertex in it is at most the number of vertices; the vertices of the set and their neighbours are all the vertices, so that with degrees of at most d the set has at least one in d+1 vertices; the sets of two runs differ in size by a factor of at most d; in a complete graph it has one vertex; vertices without neighbours are always in it. With the same numbers the two functions return the same set, and one runs forever exactly if the other does. Renumbering the vertices renumbers the set; the weights of the edges do not matter, nor anything but the order of the numbers drawn. A vertex with a number greater than those of its neighbours in the first round is in the set. Both functions return once there have been as many rounds without ties between neighbours as there are vertices.", "quantifier": "all undirected graphs with at least one vertex, all sequences of random numbers other than zero, all renumberings, all numbers of rounds", "why_tests_cant": "the random numbers of every round and the graphs range over everything; a test sees the set of one run", "anchors": ["src/algorithms/mis.hpp: mis", "src/algorithms/appendix_algorithms.hpp: mis_appendixB6"]}
{"id": "C95", "title": "Vectors that report a wrong number of elements", "statement": "A vector built with a repeated index reports too many elements (C03). No operation is misled by this: mxv, vxm, eWiseAdd, eWiseMult, apply, reduce, extract and assign, with any mask, accumulator and output control, return the same vector or throw the same exception as if every operand, the mask and the vector written to reported the right number; and what an operation returns reports the right number again. Methods answer as for a vector with the right number, except nvals itself, which reports as many too many as there were repetitions until the vector is cleared. Of a vector that reports no elements although it has some (C42), mxv, vxm, eWiseMult, apply and reduce see none, eWiseAdd sees none if the other operand reports none too and all of them otherwise, and extract, assign and masks see all of them.", "quantifier": "all vectors whose arrays have an entry for every index, whatever number of elements they report; all operations, masks, accumulators, operators and shapes; all sequences of method calls", "why_tests_cant": "the operations test the number of elements in different places; whether a wrong number changes a result depends on operand, operation and history, and unit tests compare vectors that report the right number", "anchors": ["src/graphblas/platforms/sequential/BitmapSparseVector.hpp: build, nvals, clear, resize, setElement, removeElement, getContents, setContents", "src/graphblas/platforms/sequential/sparse_mxv.hpp: mxv", "src/graphblas/platforms/sequential/sparse_vxm.hpp: vxm", "src/graphblas/platforms/sequential/sparse_ewiseadd.hpp: eWiseAdd", "src/graphblas/platforms/sequential/sparse_ewisemult.hpp: eWiseMult", "src/graphblas/platforms/sequential/sparse_apply.hpp: apply", "src/graphblas/platforms/sequential/sparse_reduce.hpp: reduce_vector_to_scalar"]}
{"id": "C96", "title": "Operators that have effects or throw", "statement": "An operator given to an operation (a unary or binary operator, a semiring, an accumulator, the dup of build) may count, log or draw random numbers, and it may throw. If it always returns the value of a function, the call returns the same container or throws the same library exception as with that function, whatever else the operator does. It is called once for each stored element (apply), each pair of stored elements at the same place (eWiseAdd, eWiseMult), each product and each addition of a product (mxv, vxm, mxm), in the order of the indices; lone elements are converted without a call; the accumulator is called after all of these, once for each place where both the output and the result have an element. If a call of an operator throws, it is the last one made, the exception reaches the caller, and the output container is as it was before the operation.", "quantifier": "all operators with any state and any pattern of exceptions; all operations of the sequential backend, Vector::build, Matrix::build and the unmasked mxm of the optimized backend; all operands, outputs, masks, accumulators and shapes", "why_tests_cant": "which call throws depends on the operator and on everything called before it; unit tests use operators without effects that never throw", "anchors": ["src/graphblas/operations.hpp: mxm, vxm, mxv, eWiseAdd, eWiseMult, apply, reduce, kronecker, extract, assign, transpose", "src/graphblas/platforms/sequential/sparse_helpers.hpp: ewise_or, ewise_and, dot, axpy, xpey, ewise_or_opt_accum, reduction", "src/graphblas/platforms/sequential/BitmapSparseVector.hpp: build", "src/graphblas/platforms/sequential/LilSparseMatrix.hpp: build, setElement", "src/graphblas/platforms/optimized_sequential/sparse_mxm_AB.hpp: sparse_mxm_NoMask_NoAccum_AB"]}
{"id": "C97", "title": "Algorithms refuse arguments whose shapes do not fit", "statement": "A graph algorithm that is called with a graph that is not square, with an output, an initial set or clustering or a wavefront of another size than the graph, with a source, sink or vertex that is not in the graph, or with no sources at all, ends with one of the library's exceptions: it returns no result, does not run forever and does not run into undefined behaviour, whatever the graph's content.", "quantifier": "all graphs, all sizes of the other arguments, all vertices, for the traversals, shortest paths, metrics, triangle counts, trusses, independent sets, spanning trees, clusterings, PageRank, betweenness, maximum flow and the appendix algorithms", "why_tests_cant": "about half of the algorithms test their arguments themselves, the others rely on the first GraphBLAS call that does not fit, so what happens depends on which call that is and whether it is reached; unit tests of the algorithms pass fitting arguments", "anchors": ["src/algorithms/bfs.hpp: bfs, bfs_batch, bfs_level, bfs_level_masked, batch_bfs_level_masked, bfs_level_masked_v2", "src/algorithms/sssp.hpp: sssp, batch_sssp, filtered_sssp, sssp_delta_step", "src/algorithms/apsp.hpp: apsp", "src/algorithms/metrics.hpp", "src/algorithms/triangle_count.hpp", "src/algorithms/k_truss.hpp: k_truss2", "src/algorithms/mis.hpp, mst.hpp, cluster.hpp, page_rank.hpp, bc.hpp, maxflow.hpp", "src/algorithms/appendix_algorithms.hpp"]}
{"id": "C98", "title": "Running out of memory", "statement": "If a request for memory fails at any point of a call, the call throws std::bad_alloc and the container it writes is either as it was or as the call would have left it, and in any case consistent: the number of stored values it reports is the number it has.", "quantifier": "all containers, calls, arguments, masks, accumulators and output modes, and every request for memory of the call as the one that fails", "why_tests_cant": "a test would have to inject a failing allocation at every request of every call; the allocations are made deep inside standard containers and their number depends on the input", "anchors": ["src/graphblas/platforms/sequential/LilSparseMatrix.hpp: setElement, build, resize, operator=, setRow, setCol", "src/graphblas/platforms/sequential/BitmapSparseVector.hpp: build, resize, operator=, clear, setContents", "src/graphblas/platforms/sequential/sparse_helpers.hpp: sparse_copy, write_with_opt_mask, write_with_opt_mask_1D", "src/graphblas/platforms/sequential/sparse_assign.hpp: assign to a row, assign to a column"]}
{"id": "C99", "title": "Matrices that report too many elements", "statement": "A matrix operation that ran out of memory can leave a matrix that reports more elements than it has (C98). No operation is misled by this: mxm, mxv, vxm, eWiseAdd, eWiseMult, apply, reduce, extract, assign, transpose and kronecker, with any mask, accumulator and output control, write the same elements or throw the same exception as if every matrix reported the right number. A matrix written without a mask reports the right number again; one written with a mask, or in one row or column, stays as far off as it was. Methods answer as for a matrix with the right number, except nvals itself, until the matrix is cleared or loses rows; copies report what the original does, and a comparison finds such a matrix different from one with the same elements.", "quantifier": "all operations, masks, accumulators, output modes, matrices with sorted rows that report at least as many elements as they have, and sequences of method calls of any length", "why_tests_cant": "the matrices arise only from failed allocations; every operation has shortcuts on the reported number of elements that would have to be tried on every combination of operands with wrong numbers", "anchors": ["src/graphblas/platforms/sequential/LilSparseMatrix.hpp: nvals, setRow, setCol, resize, clear, operator==, operator=", "src/graphblas/platforms/sequential/sparse_mxm.hpp, sparse_mxv.hpp, sparse_vxm.hpp, sparse_ewiseadd.hpp, sparse_ewisemult.hpp, sparse_reduce.hpp, sparse_transpose.hpp, sparse_kronecker.hpp: tests of nvals() > 0", "src/graphblas/platforms/sequential/sparse_helpers.hpp: write_with_opt_mask, sparse_copy"]}
{"id": "C100", "title": "Products of the optimized backend with matrices that report too many elements", "statement": "With the optimized_sequential backend a matrix can also be left reporting more elements than it has when a call runs out of memory. mxm of that backend, for every combination of transposed operands, mask, accumulator and output control, and when operands or mask are the output itself, ends in the same way and leaves the same elements as if every matrix reported the right number. (Violated: C = A*B' without mask and accumulator keeps old elements of C if A has no elements but reports some; it holds if no matrix without elements reports some.)", "quantifier": "all element types and operators, accumulators, masks, output modes, aliasings of the arguments with the output, and matrices, whatever number of elements they report, of any size", "why_tests_cant": "the matrices arise only from failed allocations, and twenty-three of the twenty-four functions of the backend decide by the reported number of elements whether to skip the computation", "anchors": ["src/graphblas/platforms/optimized_sequential/sparse_mxm_AB.hpp, sparse_mxm_ABT.hpp, sparse_mxm_ATB.hpp, sparse_mxm_ATBT.hpp: tests of nvals() == 0", "src/graphblas/platforms/optimized_sequential/LilSparseMatrix.hpp: setRow, mergeRow, swap"]}
{"id": "C101", "title": "Products of the optimized backend that run out of memory", "statement": "If mxm of the optimized_sequential backend runs out of memory, it throws std::bad_alloc and leaves an output of the same shape with sorted rows, whose elements are old ones or ones of the result, and that reports at least as many elements as it holds: rows above some row are new, rows below as before, and that row is as before or a beginning of the new one. With enough memory it returns the result, and calls whose shapes do not fit are refused with any memory. (Violated: C = A'*B' without mask and accumulator, C distinct from A and B, leaves elements in a matrix that reports none, so that later products take it for empty.)", "quantifier": "all element types and operators, accumulators, masks, output modes, aliasings of the arguments with the output, matrices of any size, and points at which an allocation fails", "why_tests_cant": "allocation failures do not occur in tests, and each can happen at any of the requests of any of the twenty-four functions", "anchors": ["src/graphblas/platforms/optimized_sequential/sparse_mxm_AB.hpp, sparse_mxm_ABT.hpp, sparse_mxm_ATB.hpp, sparse_mxm_ATBT.hpp: all functions", "src/graphblas/platforms/optimized_sequential/LilSparseMatrix.hpp: setRow, mergeRow, swap, clear, recomputeNvals"]}
{"id": "C102", "title": "Making a call again after it ran out of memory", "statement": "If a call threw std::bad_alloc, however often it did and with whatever memory, then making it again with enough memory leaves the output the way it would have been left had the first call succeeded. (Violated: with an accumulator, elements that were written are accumulated twice and others are lost; elements outside a mask that are to be kept and elements outside the indices of an assignment are lost; with a mask, and for the products of the optimized backend also without, the output reports more elements than it has.)", "quantifier": "all operations, element types and operators, accumulators, masks, output modes, matrices and vectors of any size, any number of failed attempts and points at which their allocations fail", "why_tests_cant": "allocation failures do not occur in tests, and what is left depends on the point at which each of the earlier attempts failed", "anchors": ["src/graphblas/platforms/sequential/sparse_helpers.hpp: write_with_opt_mask, sparse_copy", "src/graphblas/platforms/sequential/LilSparseMatrix.hpp: operator=, setRow, clear", "src/graphblas/platforms/sequential/BitmapSparseVector.hpp: setContents, operator=", "src/graphblas/platforms/optimized_sequential/sparse_mxm.hpp: all functions"]}
{"id": "C103", "title": "Programs that go on after running out of memory", "statement": "A program that catches std::bad_alloc and goes on never runs into undefined behaviour because of it. Whatever memory each of its calls finds, the call returns or throws as its meaning says for the elements that are stored then, or throws std::bad_alloc; in that case all vectors, the shapes of all matrices and the elements of all matrices other than its output are as before, and also those of its output unless the call is an operation, an assign or a build. With enough memory a call does not throw std::bad_alloc. (Violated: a copy of a matrix that ran out of memory can leave a matrix that stores more elements than nvals reports, so that extractTuples into arrays of that many elements writes past their ends.)", "quantifier": "all programs of any length that choose their calls by what earlier calls returned or threw, all matrices and vectors of any size, including matrices that report too many elements, and any memory found by each call", "why_tests_cant": "allocation failures do not occur in tests, and a program can run out of memory any number of times at any points of its calls", "anchors": ["src/graphblas/operations.hpp: all functions", "src/graphblas/Matrix.hpp: Matrix", "src/graphblas/Vector.hpp: Vector", "src/graphblas/platforms/sequential/LilSparseMatrix.hpp: operator=, build, setRow, setCol, setElement, resize", "src/graphblas/platforms/sequential/sparse_helpers.hpp: write_with_opt_mask, sparse_copy"]}
{"id": "C104", "title": "Clusterings and scores of edges do not depend on the numbering of the vertices", "statement": "If the vertices of a graph are renumbered, Markov clustering, peer-pressure clustering and edge betweenness give the renumbered result: the element at the new numbers of two vertices is the element that was at their old numbers. Louvain clustering puts two vertices in one cluster whatever their numbers are.", "quantifier": "all graphs of any size, all renumberings of their vertices, all exponents, thresholds and limits of iterations, and for peer_pressure_cluster_v2 all initial clusterings", "why_tests_cant": "there are n! numberings of a graph with n vertices, and whether one matters depends on the weights", "anchors": ["src/algorithms/cluster.hpp: peer_pressure_cluster, peer_pressure_cluster_v2, markov_cluster", "src/algorithms/bc.hpp: edge_betweenness_centrality", "src/algorithms/cluster_louvain.hpp: louvain_cluster, louvain_cluster_masked"]}
{"id": "C105", "title": "Products and reductions can be computed by blocks", "statement": "A program that cuts the operands of mxm with extract and index ranges, multiplies the parts, and puts the results together with an accumulator (blocks of the inner dimension) or with assign (blocks of rows or of columns) ends with the matrix one call of mxm gives. The same holds of mxv by blocks of rows, and of reduce of a vector to a scalar slice by slice.", "quantifier": "all shapes, contents and ways to cut, plain and transposed operands, all scalar types and operators that satisfy the laws named (an associative addition for inner blocks, a monoid for reduce, none for blocks of rows or columns), whatever the output contained before", "why_tests_cant": "there are 2^(n-1) ways to cut n rows, and each is a program of many calls", "anchors": ["src/graphblas/operations.hpp: mxm, mxv, extract, assign, reduce", "src/graphblas/indices.hpp: IndexSequenceRange"]}
{"id": "C106", "title": "The order and the batches in which elements are given to build", "statement": "If dup is associative and commutative, build gives the same container for every order of its tuples; for any dup, only the order among tuples with the same coordinates matters. A matrix can be built in batches, by calling build again, or by building each batch into a matrix of its own and adding these with eWiseAdd and an associative dup; exchanging the coordinates of every tuple gives the transposed matrix. A vector is not built in batches: build discards what the vector held.", "quantifier": "all lists of tuples within range with any repetitions, all orders and ways to split them, all contents of the matrix before, all operators with the laws named", "why_tests_cant": "n tuples have n! orders, and each may have repeated coordinates", "anchors": ["src/graphblas/Matrix.hpp: Matrix::build", "src/graphblas/Vector.hpp: Vector::build", "src/graphblas/operations.hpp: eWiseAdd, transpose"]}
{"id": "C107", "title": "A transposed view is as good as a transposed copy", "statement": "Wherever an operation takes a matrix operand, passing transpose(A) gives the same output as first computing X with the operation transpose and passing X, for every mask, accumulator and output control: mxm, mxv, vxm, eWiseAdd, eWiseMult, apply, reduce, extract, assign, transpose and kronecker.", "quantifier": "all matrices, all outputs, masks, accumulators, output controls, index lists and operators; for mxm either operand or both may be views", "why_tests_cant": "the two calls take different overloads with different loops for each operation, and must agree on every matrix, mask and control", "anchors": ["src/graphblas/operations.hpp: mxm, mxv, vxm, eWiseAdd, eWiseMult, apply, reduce, extract, assign, transpose, kronecker", "src/graphblas/TransposeView.hpp: TransposeView"]}
{"id": "C108", "title": "Where results have elements does not depend on values, and order and structure of values carry over", "statement": "Take two calls of the same operation whose arguments have elements at the same positions, with corresponding elements related (any relation, the scalar types may differ), operators that take related arguments to related results, masks that allow the same positions and the same output control. Both end, and their outputs have elements at the same positions, with corresponding elements related. So the positions and the number of elements of a result do not depend on the values in the arguments: elements that cancel are stored. Operators that respect an order give ordered results, e.g. smaller weights give shorter paths. A homomorphism may be applied to a product or to its factors. This holds of mxm, mxv, vxm, eWiseAdd, eWiseMult, apply, reduce to a vector, transpose, kronecker, extract, and assign of containers and constants.", "quantifier": "all containers, relations, scalar types, operators, masks, accumulators, output controls and index lists", "why_tests_cant": "it compares two runs on arbitrary values, for all relations between them", "anchors": ["src/graphblas/operations.hpp: mxm, mxv, vxm, eWiseAdd, eWiseMult, apply, reduce, transpose, kronecker, extract, assign"]}
{"id": "C109", "title": "Powers of a matrix sum over walks", "statement": "A program that multiplies a square matrix k times by itself with mxm over a semiring ends with a matrix whose element at (i, j) is the sum, over all choices of k vertices, of the products of the elements along the walk from i over these vertices to j; it is stored exactly if there is such a walk. If addition selects the better value, as min, it is the best value of a walk; if all elements are one, it is the number of walks. Multiplying the results for two exponents gives that for the sum of the exponents, and squaring k times gives the power 2^k.", "quantifier": "all square matrices, semirings, exponents, containers for the intermediate results and output modes", "why_tests_cant": "the exponent and the matrix are unbounded and the number of walks grows exponentially", "anchors": ["src/graphblas/operations.hpp: mxm"]}
{"id": "C110", "title": "Accumulating products in place reaches the closure of a graph", "statement": "A program that starts with X = A and calls mxm(X, NoMask(), add, semiring, X, A) k times, with the semiring's idempotent addition as the accumulator, ends with the sums over the walks of at most k + 1 edges; an element is stored exactly if there is such a walk. mxm(X, NoMask(), add, semiring, X, X) called k times gives what 2^k - 1 of these calls give. If A has n rows, n - 1 calls suffice for the elements to be those of all pairs joined by a walk. If addition selects the better value and no closed walk improves what follows it, n - 1 calls give the best value of all walks, and further calls change nothing. With min and + on a graph without negative cycles these are the shortest distances, and agree with apsp. Calling vxm(w, NoMask(), add, semiring, w, A) k times adds, for every element of w, the sums over the walks of at most k edges from there, and gives what one such call with the closure after k - 1 accumulations gives.", "quantifier": "all square matrices, idempotent semirings, numbers of calls and output modes", "why_tests_cant": "matrix and number of calls are unbounded; that n - 1 calls suffice is a statement about all graphs", "anchors": ["src/graphblas/operations.hpp: mxm", "src/algorithms/apsp.hpp: apsp", "src/graphblas/operations.hpp: vxm"]}
{"id": "C111", "title": "The homework demo searches from all vertices at once", "statement": "The function bfs_level_masked of masked_mxm_homework.cpp gives the same result as the library's batch_bfs_level_masked on every input. Its program, for any number of nodes below 2^32 and any list of edges between them, with repetitions, ends, and prints for every pair of nodes one plus the least number of edges from the one to the other, and an empty place if there is no way. For its own graph the printed tables are those in its comments.", "quantifier": "all numbers of nodes and lists of edges", "why_tests_cant": "the program contains one graph of seven nodes; its claim is about all graphs", "anchors": ["src/demo/masked_mxm_homework.cpp: bfs_level_masked, main", "src/graphblas/Matrix.hpp: print_matrix"]}
{"id": "C112", "title": "The shortest-path demo counts edges", "statement": "sssp_demo.cpp gives every edge the weight 1. For any number of nodes from 1 to 2^64 - 1 and any list of edges between them, with repetitions, and any whole-number type that has the numbers up to the number of nodes, the program ends; its single search prints for every node the least number of edges from node 0, its batch prints in row u the least number of edges from node u, both print an empty place where there is no way, and the first row of the batch is the single search.", "quantifier": "all numbers of nodes, lists of edges and whole-number types", "why_tests_cant": "the program contains one graph of nine nodes and prints what it finds without a check", "anchors": ["src/demo/sssp_demo.cpp: run_demo", "src/graphblas/Vector.hpp: print_vector", "src/algorithms/sssp.hpp: sssp, batch_sssp"]}
{"id": "C113", "title": "The breadth-first demo prints a tree for every root", "statement": "bfs_demo.cpp, for any number of nodes below 2^64, any list of edges between them, with repetitions, and any root, ends. In the list it prints, the root is its own parent, every other node that can be reached from the root has as parent the smallest-numbered in-neighbour among the nodes one edge closer to the root, and a node that cannot be reached has none. Row s of the table it prints is such a list for the root s, and the list is row r of the table.", "quantifier": "all numbers of nodes, lists of edges and roots", "why_tests_cant": "the program contains one graph of nine nodes and prints what it finds without a check", "anchors": ["src/demo/bfs_demo.cpp: main", "src/algorithms/bfs.hpp: bfs, bfs_batch"]}
{"id": "C114", "title": "The level demo prints the same levels twice", "statement": "bfs_level_demo.cpp, for any number of nodes below 2^32, any list of edges between them, with repetitions, and any root, ends. Both of its searches, the deprecated bfs_level and batch_bfs_level_masked, print one plus the least number of edges from the root to every node and an empty place where there is no way, so both print the same; the matrix with the root is printed unchanged after each of them. The karate club in the program is meant as an undirected graph, but two of its edges, 0 to 23 and 17 to 0, lack the edge back.", "quantifier": "all numbers of nodes, lists of edges and roots", "why_tests_cant": "the program contains one graph of 34 nodes and compares nothing", "anchors": ["src/demo/bfs_level_demo.cpp: main", "src/algorithms/bfs.hpp: bfs_level, batch_bfs_level_masked"]}
{"id": "C115", "title": "What the product demo's own check accepts", "statement": "mxm_homework.cpp, for square matrices of any size, any elements and any answers with at most one for each place, exits with 0 exactly if every element stored in the product a times b is one of the answers, and with 1 otherwise. With ones on the diagonals of both matrices and of the answers, as in the program, it exits with 0, for every size. It does not notice that an answer is missing from the product.", "quantifier": "all sizes, elements, answers and scalar types", "why_tests_cant": "the program is itself a test of one product; what a test accepts is a statement about all products", "anchors": ["src/demo/mxm_homework.cpp: main"]}
{"id": "C116", "title": "The appendix program prints four examples and ends in an exception", "statement": "appendix_examples.cpp, for any graphs with fewer than 2^32 nodes, any starts and any sources: examples B.1 and B.2 give the same levels, one plus the number of edges from the start and nothing where there is no way; B.3 gives the smallest-numbered neighbour one edge closer to the start; the sum of B.4 is the betweenness centrality relative to the sources of the loop (as long as no source has more than 2^31 - 1 shortest paths). In B.5 the program ends with an uncaught DimensionException whenever the graph has more than one node and the source has an edge to another node, so with its own data as well: nothing behind that call is ever run. The karate club in the program is meant as an undirected graph, but one of its edges, 28 to 31, lacks the edge back.", "quantifier": "all graphs, starts, sources, all behaviours of signed overflow and everything that could follow B.5", "why_tests_cant": "the program prints and checks nothing; what it shows of each algorithm is a statement about every graph", "anchors": ["src/demo/appendix_examples.cpp: main", "src/algorithms/appendix_algorithms.hpp: bfs_level_appendixB1, bfs_level_appendixB2, bfs_parent_appendixB3, BC_appendixB4, BC_update_appendixB5"]}
{"id": "C117", "title": "What the peer-pressure demo prints", "statement": "peer_pressure_demo.cpp, for any graph and any limit to the number of rounds, shows the clustering that peer pressure arrives at when every node starts in a cluster of its own and shares one vote equally between the nodes it has edges to, as a matrix and as a list. If every node has an edge from some node, every node is in a cluster. Two limits that follow each other and give the same list give the list of every greater limit. With its own graphs the program prints 6 7 6 7 6 7 6 7 and 2 2 2 4 4.", "quantifier": "all graphs and limits", "why_tests_cant": "the program prints and checks nothing; with the greatest unsigned int as the limit, only an argument about a settled clustering says what it prints", "anchors": ["src/demo/peer_pressure_demo.cpp: main", "src/algorithms/cluster.hpp: peer_pressure_cluster, get_cluster_assignments"]}
{"id": "C118", "title": "What the karate-club clustering demo prints", "statement": "peer_pressure_karate_demo.cpp, for any graph and any limit to the number of rounds, prints two clusterings that peer pressure arrives at when every node starts on its own, in the graph to which an edge from every node to itself is added: the first with whole votes, the second with votes shared between the neighbours. Every node is in a cluster in both. With its own graph the first list has three clusters, 33, 10 and 16; the second is the list stated in the theorem.", "quantifier": "all graphs and limits", "why_tests_cant": "the program prints and checks nothing; that no node is left without a cluster is a statement about every graph and every number of rounds", "anchors": ["src/demo/peer_pressure_karate_demo.cpp: main", "src/algorithms/cluster.hpp: peer_pressure_cluster_v2, peer_pressure_cluster, get_cluster_assignments"]}
{"id": "C119", "title": "What the karate-club Louvain demo prints", "statement": "louvain_karate_demo.cpp, for any graph, any seeds and any random numbers: if it comes to its end it has printed two vectors for each seed, and each vector gives every node a cluster such that no single node with an edge that leaves it raises the modularity by going to a cluster that is considered for it. If no random number is drawn twice for one seed and every node with an edge that leaves it has one to another node, as in the program's graph, it ends, by running through or with the exception for too many rounds, and nothing in it is undefined.", "quantifier": "all graphs, seeds and sequences of random numbers", "why_tests_cant": "the result depends on random numbers; a test sees the ones of one generator", "anchors": ["src/demo/louvain_karate_demo.cpp: main", "src/algorithms/cluster_louvain.hpp: louvain_cluster, louvain_cluster_masked, get_louvain_cluster_assignments"]}
