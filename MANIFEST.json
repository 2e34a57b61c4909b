{
 "claims": [
  {
   "property": "C01",
   "status": "proved",
   "theorems": [
    "GBTL.C01_vector_is_finite_map",
    "GBTL.C01_throw_changes_nothing"
   ],
   "note": "Any list of calls including resize; answers include nvals and exceptions."
  },
  {
   "property": "C02",
   "status": "proved",
   "theorems": [
    "GBTL.C02_matrix_is_finite_map",
    "GBTL.C02_throw_changes_nothing"
   ],
   "note": "Any list of calls including resize and setElement with merge."
  },
  {
   "property": "C03",
   "status": "partial",
   "theorems": [
    "GBTL.C03_vector_build_partial",
    "GBTL.C03_vector_build_nvals_wrong",
    "GBTL.C03_vector_build_out_of_range",
    "GBTL.C03_vector_build_length_mismatch"
   ],
   "note": "The code violates the nvals clause when an index is repeated (disproved with a witness); everything else, and nvals for distinct indices, is proved."
  },
  {
   "property": "C04",
   "status": "proved",
   "theorems": [
    "GBTL.C04_matrix_build",
    "GBTL.C04_matrix_build_empty",
    "GBTL.C04_matrix_build_out_of_range"
   ],
   "note": ""
  },
  {
   "property": "C05",
   "status": "proved",
   "theorems": [
    "GBTL.C05_vector_resize",
    "GBTL.C05_vector_resize_zero",
    "GBTL.C05_matrix_resize",
    "GBTL.C05_matrix_resize_zero"
   ],
   "note": ""
  },
  {
   "property": "C06",
   "status": "proved",
   "theorems": [
    "GBTL.C06_vector_eq",
    "GBTL.C06_matrix_eq"
   ],
   "note": "Value comparison is decidable equality, so NaN is not covered."
  },
  {
   "property": "C07",
   "status": "proved",
   "theorems": [
    "GBTL.C07_vector_tuples",
    "GBTL.C07_vector_round_trip",
    "GBTL.C07_matrix_tuples",
    "GBTL.C07_matrix_round_trip"
   ],
   "note": ""
  },
  {
   "property": "C08",
   "status": "partial",
   "theorems": [
    "GBTL.C08_matrix_consistent_partial",
    "GBTL.C08_vector_consistent_partial",
    "GBTL.C08_matrix_eq_partial",
    "GBTL.C08_matrix_call_returns_or_throws_partial",
    "GBTL.C08_vector_call_returns_or_throws_partial",
    "GBTL.C08_assign_const_repeat_wrong"
   ],
   "note": "Proved for every program (any sequence of constructors, calls, builds and operations); excluded are exactly the calls disproved elsewhere (Vector(count,value), Vector::build with repeats, assign of a constant to an unsorted list, AllIndices with a larger source)."
  },
  {
   "property": "C09",
   "status": "proved",
   "theorems": [
    "GBTL.C09_mxm"
   ],
   "note": "Any mask kind, accumulator and output mode; any semiring functions (no laws needed)."
  },
  {
   "property": "C10",
   "status": "partial",
   "theorems": [
    "GBTL.C10_mxm_ATB",
    "GBTL.C10_mxm_ABT",
    "GBTL.C10_mxm_transposed_partial",
    "GBTL.C10_mxm_ATBT_actual",
    "GBTL.C10_mxm_both_transposed_wrong"
   ],
   "note": "With both operands transposed the code swaps the arguments of the multiplication: disproved with a witness, proved for multiplications where the swap does not matter, and the actual result is characterised."
  },
  {
   "property": "C100",
   "status": "partial",
   "theorems": [
    "GBTL.C100_opt_mxm_partial",
    "GBTL.C100_opt_mxm_wrong"
   ],
   "note": "Proved if every matrix read reports no element exactly if it has none; negation proved for matrices without elements that report some. How far off the result's number is afterwards is not stated for this backend."
  },
  {
   "property": "C101",
   "status": "partial",
   "theorems": [
    "GBTL.C101_rows_partial",
    "GBTL.C101_opt_mxm_partial",
    "GBTL.C101_uncounted_actual",
    "GBTL.C101_refused",
    "GBTL.C101_uncounted_wrong",
    "GBTL.C101_count_wrong"
   ],
   "note": "Proved for all products but A'*B' without mask and accumulator into a third matrix, for which the negation is proved and what it leaves is characterised."
  },
  {
   "property": "C102",
   "status": "partial",
   "theorems": [
    "GBTL.C102_unmasked_operation",
    "GBTL.C102_replacing_operation_partial",
    "GBTL.C102_vector_operation",
    "GBTL.C102_matrix_copy",
    "GBTL.C102_replace_count_wrong",
    "GBTL.C102_accumulate_wrong",
    "GBTL.C102_merge_wrong",
    "GBTL.C102_assign_wrong",
    "GBTL.C102_wrong",
    "GBTL.C102_opt_product_partial",
    "GBTL.C102_opt_count_wrong"
   ],
   "note": "Proved for operations on vectors, copies of matrices, and matrix operations other than assignments without mask and accumulator; with replaced outputs under a mask and for products of the optimized backend up to the count; the negation is proved elsewhere."
  },
  {
   "property": "C103",
   "status": "partial",
   "theorems": [
    "GBTL.C103_call_partial",
    "GBTL.C103_enough_partial",
    "GBTL.C103_program_partial",
    "GBTL.C103_program_from_consistent_partial",
    "GBTL.C103_copy_wrong",
    "GBTL.C103_copy_then_transpose_wrong",
    "GBTL.C103_wrong"
   ],
   "note": "Left out: copies of matrices (the negation is proved), growing vectors, and what shows the count of a matrix (nvals, comparison), which may be too large; and the calls C67 leaves out, which have negations elsewhere."
  },
  {
   "property": "C104",
   "status": "partial",
   "theorems": [
    "GBTL.C104_markov",
    "GBTL.C104_peer_pressure_partial",
    "GBTL.C104_peer_pressure_v2_partial",
    "GBTL.C104_edge_betweenness",
    "GBTL.C104_peer_pressure_wrong",
    "GBTL.C104_louvain_wrong"
   ],
   "note": "Peer-pressure clustering is only proved where no two sets of voters can have as many votes for a vertex: otherwise the cluster with the higher number wins, and C104_peer_pressure_wrong has a graph that looks the same after exchanging two vertices, but whose clustering does not. Markov clustering is proved for positive weights and edge betweenness for graphs of ones, loops included. Louvain clustering does depend on the numbering, whatever random numbers are drawn: C104_louvain_wrong has a path of four vertices that is cut in two or left whole."
  },
  {
   "property": "C105",
   "status": "proved",
   "theorems": [
    "GBTL.C105_product_by_inner_blocks",
    "GBTL.C105_product_by_rows",
    "GBTL.C105_product_by_columns",
    "GBTL.C105_mxv_by_rows",
    "GBTL.C105_reduce_by_slices"
   ],
   "note": "A transposed first operand of mxm, together with a transposed second, and a transposed operand of mxv, need a commutative multiplication, because the code exchanges the arguments there (C10, C12)."
  },
  {
   "property": "C106",
   "status": "proved",
   "theorems": [
    "GBTL.C106_matrix_any_order",
    "GBTL.C106_matrix_same_order",
    "GBTL.C106_matrix_batches",
    "GBTL.C106_matrix_union",
    "GBTL.C106_matrix_swapped",
    "GBTL.C106_vector_any_order",
    "GBTL.C106_vector_rebuilt"
   ],
   "note": "That the number of elements a vector reports is too large when indices are repeated is C03; it does not depend on the order either."
  },
  {
   "property": "C107",
   "status": "partial",
   "theorems": [
    "GBTL.C107_mxm_partial",
    "GBTL.C107_vxm",
    "GBTL.C107_mxv_partial",
    "GBTL.C107_eWise_partial",
    "GBTL.C107_apply",
    "GBTL.C107_reduce",
    "GBTL.C107_extract",
    "GBTL.C107_extract_column",
    "GBTL.C107_assign",
    "GBTL.C107_transpose",
    "GBTL.C107_kronecker_partial",
    "GBTL.C107_mxm_wrong",
    "GBTL.C107_mxv_wrong"
   ],
   "note": "C107_mxm_partial asks, only when both operands are views, and C107_mxv_partial asks when the matrix is a view, that exchanging the arguments of the multiplication changes nothing; without this the claim is false (C107_mxm_wrong, C107_mxv_wrong). C107_eWise_partial is for operands of one scalar type (C13, C14). C107_kronecker_partial needs a result whose dimensions fit 64 bits (C22)."
  },
  {
   "property": "C108",
   "status": "partial",
   "theorems": [
    "GBTL.C108_mxm",
    "GBTL.C108_vxm",
    "GBTL.C108_mxv",
    "GBTL.C108_eWise",
    "GBTL.C108_apply",
    "GBTL.C108_reduce",
    "GBTL.C108_transpose",
    "GBTL.C108_kronecker_partial",
    "GBTL.C108_extract",
    "GBTL.C108_assign",
    "GBTL.C108_assign_constant_partial",
    "GBTL.C108_assign_constant_masked",
    "GBTL.C108_assign_constant_vector_partial",
    "GBTL.C108_vectors",
    "GBTL.C108_extract_vector",
    "GBTL.C108_assign_vector",
    "GBTL.C108_extract_column",
    "GBTL.C108_same_number",
    "GBTL.C108_same_number_vector",
    "GBTL.C108_homomorphism"
   ],
   "note": "C108_kronecker_partial needs a result whose dimensions fit 64 bits (C22). C108_assign_constant_partial and C108_assign_constant_vector_partial are for ascending lists, C108_assign_constant_masked for any lists but with masks in both calls: without a mask other lists can leave an inconsistent container (C20)."
  },
  {
   "property": "C109",
   "status": "proved",
   "theorems": [
    "GBTL.C109_power_sums_walks",
    "GBTL.C109_power_stored",
    "GBTL.C109_power_best",
    "GBTL.C109_stops",
    "GBTL.C109_power_counts",
    "GBTL.C109_exponents_add",
    "GBTL.C109_squares"
   ],
   "note": "Semirings are exact: numbers without bound or modulo a power of two (example), not floating point."
  },
  {
   "property": "C11",
   "status": "proved",
   "theorems": [
    "GBTL.C11_vxm"
   ],
   "note": ""
  },
  {
   "property": "C110",
   "status": "proved",
   "theorems": [
    "GBTL.C110_closure_sums_walks",
    "GBTL.C110_squares",
    "GBTL.C110_stored",
    "GBTL.C110_best",
    "GBTL.C110_reach",
    "GBTL.C110_best_of_all",
    "GBTL.C110_stable",
    "GBTL.C110_vector_sums_walks",
    "GBTL.C110_query",
    "GBTL.C110_distances",
    "GBTL.C110_apsp"
   ],
   "note": "Additions in the programs are exact (C110_distances: integers that do not overflow). X is input and output of the calls, which C29 shows to be as good as a copy. apsp differs at vertices without a self-loop, where it stores zero (C37)."
  },
  {
   "property": "C111",
   "status": "proved",
   "theorems": [
    "GBTL.C111_same_as_library",
    "GBTL.C111_levels",
    "GBTL.C111_prints"
   ],
   "note": "The headings that are printed differ from those in the comments, which are of an older version of the library. The name of the element type (typeid) is taken to be m."
  },
  {
   "property": "C112",
   "status": "proved",
   "theorems": [
    "GBTL.C112_paths",
    "GBTL.C112_prints"
   ],
   "note": "The run with double is not modelled. The name of unsigned int (typeid) is taken to be j."
  },
  {
   "property": "C113",
   "status": "proved",
   "theorems": [
    "GBTL.C113_parents",
    "GBTL.C113_prints"
   ],
   "note": "The name of IndexType (typeid) is taken to be m."
  },
  {
   "property": "C114",
   "status": "proved",
   "theorems": [
    "GBTL.C114_levels",
    "GBTL.C114_prints",
    "GBTL.C114_undirected_wrong"
   ],
   "note": "The name of unsigned int (typeid) is taken to be j."
  },
  {
   "property": "C115",
   "status": "proved",
   "theorems": [
    "GBTL.C115_accepts",
    "GBTL.C115_identity",
    "GBTL.C115_missing_answer_wrong"
   ],
   "note": "C115_missing_answer_wrong: the expectation that exit code 0 means the product equals the answers is refuted. The printed text is left out."
  },
  {
   "property": "C116",
   "status": "proved",
   "theorems": [
    "GBTL.C116_levels",
    "GBTL.C116_parents",
    "GBTL.C116_aggregate",
    "GBTL.C116_main_throws",
    "GBTL.C116_own_data_throws",
    "GBTL.C116_undirected_wrong"
   ],
   "note": "Floating-point dependencies are exact rationals, as in C58. The printed text is left out."
  },
  {
   "property": "C117",
   "status": "proved",
   "theorems": [
    "GBTL.C117_clusters",
    "GBTL.C117_everyone",
    "GBTL.C117_settles",
    "GBTL.C117_prints"
   ],
   "note": "Shares of votes are exact rationals, not floating point. The printed text is left out."
  },
  {
   "property": "C118",
   "status": "proved",
   "theorems": [
    "GBTL.C118_clusters",
    "GBTL.C118_prints"
   ],
   "note": "Shares of votes are exact rationals, not floating point; ties between sums of shares can be broken otherwise by rounding. The printed text is left out."
  },
  {
   "property": "C119",
   "status": "proved",
   "theorems": [
    "GBTL.C119_clusters",
    "GBTL.C119_ends"
   ],
   "note": "Weights and modularities are exact rationals, not floating point. Timings and the printed text are left out."
  },
  {
   "property": "C12",
   "status": "partial",
   "theorems": [
    "GBTL.C12_mxv",
    "GBTL.C12_mxv_partial",
    "GBTL.C12_mxv_transposed_actual",
    "GBTL.C12_mxv_transposed_wrong"
   ],
   "note": "mxv(transpose(A), u) swaps the arguments of the multiplication: disproved with a witness, proved where the swap does not matter."
  },
  {
   "property": "C13",
   "status": "partial",
   "theorems": [
    "GBTL.C13_eWiseAdd_vector",
    "GBTL.C13_eWiseAdd_same_type",
    "GBTL.C13_eWiseAdd_matrix_partial",
    "GBTL.C13_eWiseAdd_ABT_actual",
    "GBTL.C13_eWiseAdd_ABT_wrong"
   ],
   "note": "A, transpose(B) converts B to A's scalar type first: disproved for mixed types, proved for equal types and in every other combination."
  },
  {
   "property": "C14",
   "status": "partial",
   "theorems": [
    "GBTL.C14_eWiseMult_vector",
    "GBTL.C14_eWiseMult_same_type",
    "GBTL.C14_eWiseMult_matrix_partial",
    "GBTL.C14_eWiseMult_ABT_actual",
    "GBTL.C14_eWiseMult_ABT_wrong"
   ],
   "note": "As C13."
  },
  {
   "property": "C15",
   "status": "proved",
   "theorems": [
    "GBTL.C15_apply_vector",
    "GBTL.C15_apply_vector_bind1st",
    "GBTL.C15_apply_vector_bind2nd",
    "GBTL.C15_apply_matrix",
    "GBTL.C15_apply_matrix_bind1st",
    "GBTL.C15_apply_matrix_bind2nd"
   ],
   "note": ""
  },
  {
   "property": "C16",
   "status": "proved",
   "theorems": [
    "GBTL.C16_reduce_rows",
    "GBTL.C16_reduce_rows_op"
   ],
   "note": ""
  },
  {
   "property": "C17",
   "status": "proved",
   "theorems": [
    "GBTL.C17_reduce_vector",
    "GBTL.C17_reduce_matrix",
    "GBTL.C17_reduce_matrix_tr"
   ],
   "note": ""
  },
  {
   "property": "C18",
   "status": "proved",
   "theorems": [
    "GBTL.C18_extract_vector",
    "GBTL.C18_extract_matrix",
    "GBTL.C18_extract_column"
   ],
   "note": ""
  },
  {
   "property": "C19",
   "status": "proved",
   "theorems": [
    "GBTL.C19_assign_vector",
    "GBTL.C19_assign_matrix",
    "GBTL.C19_assign_column",
    "GBTL.C19_assign_row",
    "GBTL.C19_any_sort"
   ],
   "note": "Index lists without repetitions (GraphBLAS leaves the others undefined); AllIndices with a source not larger than the destination."
  },
  {
   "property": "C20",
   "status": "partial",
   "theorems": [
    "GBTL.C20_assign_const_vector_partial",
    "GBTL.C20_assign_const_matrix_partial",
    "GBTL.C20_assign_const_vector_unsorted_wrong",
    "GBTL.C20_assign_const_vector_repeat_wrong",
    "GBTL.C20_assign_const_matrix_wrong",
    "GBTL.C20_assign_const_vector_any_order_partial",
    "GBTL.C20_assign_const_vector_masked",
    "GBTL.C20_assign_const_vector_unmasked",
    "GBTL.C20_assign_const_matrix_masked",
    "GBTL.C20_assign_const_matrix_unmasked"
   ],
   "note": "The code builds the source in list order: false for unsorted or repeated lists (three witnesses); proved for ascending lists and AllIndices, and for vectors without mask and accumulator for any list without repetitions. For all lists the exact result is proved, with and without mask and accumulator, and exactly when the output stays consistent."
  },
  {
   "property": "C21",
   "status": "proved",
   "theorems": [
    "GBTL.C21_transpose",
    "GBTL.C21_transpose_twice"
   ],
   "note": ""
  },
  {
   "property": "C22",
   "status": "partial",
   "theorems": [
    "GBTL.C22_kronecker_partial",
    "GBTL.C22_kronecker_rejects_partial",
    "GBTL.C22_kronecker_shape_wraps"
   ],
   "note": "The shape check multiplies modulo 2^64, so a wrong shape can be accepted: disproved with a witness; proved for all shapes whose product fits IndexType."
  },
  {
   "property": "C23",
   "status": "proved",
   "theorems": [
    "GBTL.C23_matrix",
    "GBTL.C23_vector",
    "GBTL.C23_column",
    "GBTL.C23_row"
   ],
   "note": "Every operation, as a call of the inductive types MCall and VCall."
  },
  {
   "property": "C24",
   "status": "proved",
   "theorems": [
    "GBTL.C24_matrix",
    "GBTL.C24_vector",
    "GBTL.C24_complement_of_empty"
   ],
   "note": ""
  },
  {
   "property": "C25",
   "status": "proved",
   "theorems": [
    "GBTL.C25_matrix",
    "GBTL.C25_vector",
    "GBTL.C25_matrix_assign",
    "GBTL.C25_vector_assign"
   ],
   "note": ""
  },
  {
   "property": "C26",
   "status": "partial",
   "theorems": [
    "GBTL.C26_mxm",
    "GBTL.C26_vxm",
    "GBTL.C26_mxv",
    "GBTL.C26_eWiseAdd_vector",
    "GBTL.C26_eWiseMult_vector",
    "GBTL.C26_eWiseAdd_matrix",
    "GBTL.C26_eWiseMult_matrix",
    "GBTL.C26_apply_vector",
    "GBTL.C26_apply_matrix",
    "GBTL.C26_reduce",
    "GBTL.C26_transpose",
    "GBTL.C26_kronecker_partial",
    "GBTL.C26_extract_vector_partial",
    "GBTL.C26_extract_matrix_partial",
    "GBTL.C26_extract_column_partial",
    "GBTL.C26_assign_vector_partial",
    "GBTL.C26_assign_matrix_partial",
    "GBTL.C26_assign_column_partial",
    "GBTL.C26_assign_row_partial",
    "GBTL.C26_assign_const_vector_partial",
    "GBTL.C26_assign_const_matrix_partial",
    "GBTL.C26_all_indices_wrong",
    "GBTL.C26_assign_vector_actual",
    "GBTL.C26_assign_matrix_actual",
    "GBTL.C26_assign_column_actual",
    "GBTL.C26_assign_row_actual"
   ],
   "note": "With AllIndices the code checks no lengths: disproved with three witnesses (element dropped, undefined behaviour, position left out). Everything else is proved. The _actual theorems say what every assign does with a source of any size: undefined behaviour, elements stored past the last column, or elements past the end ignored, and exactly when. (extract with AllIndices and any shapes: the C18 theorems.)"
  },
  {
   "property": "C27",
   "status": "proved",
   "theorems": [
    "GBTL.C27_extract_vector",
    "GBTL.C27_extract_matrix",
    "GBTL.C27_extract_column",
    "GBTL.C27_assign_vector",
    "GBTL.C27_assign_matrix",
    "GBTL.C27_assign_column",
    "GBTL.C27_assign_row",
    "GBTL.C27_assign_const_vector",
    "GBTL.C27_assign_const_matrix"
   ],
   "note": ""
  },
  {
   "property": "C28",
   "status": "partial",
   "theorems": [
    "GBTL.C28_optimized_mxm_partial",
    "GBTL.C28_optimized_mxm_actual",
    "GBTL.C28_backends_agree_partial",
    "GBTL.C28_shape_mismatch",
    "GBTL.C28_stale_rows_wrong",
    "GBTL.C28_conversion_wrong",
    "GBTL.C28_accum_conversion_wrong"
   ],
   "note": "All 40 overloads agree, also with shared objects, where conversions lose nothing and A*transpose(B) without mask and accumulator meets no row of C that it fails to clear. Disproved otherwise with three witnesses; C28_optimized_mxm_actual says, position by position, what the optimized mxm leaves in the output for all arguments of fitting shapes."
  },
  {
   "property": "C29",
   "status": "partial",
   "theorems": [
    "GBTL.C29_sequential_shared",
    "GBTL.C29_sequential_mxm",
    "GBTL.C29_optimized_shared_partial",
    "GBTL.C29_no_stale_rows",
    "GBTL.C29_no_stale_rows_same",
    "GBTL.C29_optimized_shared_wrong"
   ],
   "note": "Proved without reservation for the sequential backend. For the optimized backend all sharings are proved except A*transpose(B) without mask and accumulator when copies run into stale rows: disproved."
  },
  {
   "property": "C30",
   "status": "partial",
   "theorems": [
    "GBTL.C30_fused_mask_partial",
    "GBTL.C30_row_AB",
    "GBTL.C30_row_ABT",
    "GBTL.C30_masked_accum",
    "GBTL.C30_masked_merge",
    "GBTL.C30_empty_mask_wrong"
   ],
   "note": "Proved for every masked call, except that with an empty complemented mask, an empty operand and REPLACE the fused code skips the accumulator's conversion of old elements: disproved there."
  },
  {
   "property": "C31",
   "status": "partial",
   "theorems": [
    "GBTL.C31_min_max",
    "GBTL.C31_logical",
    "GBTL.C31_plus",
    "GBTL.C31_times",
    "GBTL.C31_where_defined_partial",
    "GBTL.C31_overflow_wrong",
    "GBTL.C31_logical_int_wrong",
    "GBTL.C31_semiring",
    "GBTL.C31_semiring_zero",
    "GBTL.C31_semiring_parts"
   ],
   "note": "Proved as stated except PlusMonoid on int32_t/int64_t and TimesMonoid on these and uint16_t, where signed overflow is undefined behaviour (disproved with witnesses; the laws hold wherever both groupings are defined), and the logical monoids off bool, where the identity is wrong (disproved)."
  },
  {
   "property": "C32",
   "status": "proved",
   "theorems": [
    "GBTL.C32_bfs_level",
    "GBTL.C32_bfs_level_masked",
    "GBTL.C32_bfs_level_masked_v2",
    "GBTL.C32_false_edge_forever"
   ],
   "note": "Level and wavefront scalar types must represent the number of vertices (below 2^32 for bfs_level_masked, which accumulates in unsigned int). C32_false_edge_forever shows why stored edges must be true."
  },
  {
   "property": "C33",
   "status": "proved",
   "theorems": [
    "GBTL.C33_bfs_parents"
   ],
   "note": "For the overload with a source vertex."
  },
  {
   "property": "C34",
   "status": "proved",
   "theorems": [
    "GBTL.C34_sssp"
   ],
   "note": "No walk from the source of at most n edges overflows the scalar type; graph and distances have the same scalar type."
  },
  {
   "property": "C35",
   "status": "proved",
   "theorems": [
    "GBTL.C35_sssp_negative"
   ],
   "note": ""
  },
  {
   "property": "C36",
   "status": "partial",
   "theorems": [
    "GBTL.C36_filtered_sssp_partial",
    "GBTL.C36_filtered_sssp_actual",
    "GBTL.C36_filtered_sssp_nonneg",
    "GBTL.C36_filtered_zero_wrong"
   ],
   "note": "Proved when no walk from the source has weight 0 (e.g. positive weights and starting distance); disproved otherwise: a newly reached vertex at distance 0 is dropped. C36_filtered_sssp_actual says for all weights what the answer can be relied on for, and C36_filtered_sssp_nonneg says exactly what is returned when no weight is negative."
  },
  {
   "property": "C37",
   "status": "partial",
   "theorems": [
    "GBTL.C37_apsp_exact",
    "GBTL.C37_apsp_partial",
    "GBTL.C37_self_loop_wrong"
   ],
   "note": "Proved without self-loops of positive weight; with one the diagonal is wrong. C37_apsp_exact says what is returned on every graph without negative cycles: at a vertex with a self-loop the least weight of a nonempty way back."
  },
  {
   "property": "C38",
   "status": "proved",
   "theorems": [
    "GBTL.C38_triangle_count",
    "GBTL.C38_masked",
    "GBTL.C38_maskedT",
    "GBTL.C38_masked_noT",
    "GBTL.C38_newGBTL",
    "GBTL.C38_appendixB7"
   ],
   "note": "The number of vertices and the count (twice the count where the code halves) are representable in the scalar type; stored zeros are allowed."
  },
  {
   "property": "C39",
   "status": "partial",
   "theorems": [
    "GBTL.C39_k_truss2_partial",
    "GBTL.C39_every_k",
    "GBTL.C39_k2_is_3",
    "GBTL.C39_k2_wrong"
   ],
   "note": "C39_every_k says what is returned for any k, without stored zeros. Proved for k >= 3 with k-2 and n representable in the scalar type; disproved for k = 2: triangle-free edges are removed."
  },
  {
   "property": "C40",
   "status": "proved",
   "theorems": [
    "GBTL.C40_mis",
    "GBTL.C40_mis_exact",
    "GBTL.C40_mis_returns",
    "GBTL.C40_appendixB6",
    "GBTL.C40_appendixB6_exact",
    "GBTL.C40_appendixB6_returns",
    "GBTL.C40_self_loop_forever",
    "GBTL.C40_vertex_ids"
   ],
   "note": "For every sequence of draws (truthy, i.e. nonzero numbers, as 0.0001 + x is); floating point types are abstract (an ordered type, a sum that stays true). The set is exactly that of Luby's rounds with the numbers drawn (C40_mis_exact), and the function runs forever exactly if some vertex is free after every round. Termination needs draws without ties; a vertex with only a self-loop runs forever."
  },
  {
   "property": "C41",
   "status": "proved",
   "theorems": [
    "GBTL.C41_diag",
    "GBTL.C41_scaled_identity",
    "GBTL.C41_split"
   ],
   "note": ""
  },
  {
   "property": "C42",
   "status": "partial",
   "theorems": [
    "GBTL.C42_vector_arrays_partial",
    "GBTL.C42_vector_arrays_out_of_range",
    "GBTL.C42_vector_arrays_wrong",
    "GBTL.C42_vector_new",
    "GBTL.C42_vector_dense",
    "GBTL.C42_vector_dense_zero",
    "GBTL.C42_vector_dense_empty",
    "GBTL.C42_vector_assign_dense",
    "GBTL.C42_vector_fill_partial",
    "GBTL.C42_vector_fill_nvals_wrong",
    "GBTL.C42_matrix_new",
    "GBTL.C42_matrix_dense",
    "GBTL.C42_matrix_dense_ragged"
   ],
   "note": "The code violates the nvals clause for Vector(count, value): disproved for every positive count. It also does for the backend's constructor from arrays, which the frontend does not use, when an index is repeated. Everything else is proved."
  },
  {
   "property": "C43",
   "status": "partial",
   "theorems": [
    "GBTL.C43_degrees_partial",
    "GBTL.C43_out_of_range",
    "GBTL.C43_bool_graph_wrong",
    "GBTL.C43_degrees_exact"
   ],
   "note": "The degree is returned in the graph's scalar type: proved when the count is representable there, disproved for a graph of bool. C43_degrees_exact says what is returned for every graph and scalar type: the count converted to that type."
  },
  {
   "property": "C44",
   "status": "partial",
   "theorems": [
    "GBTL.C44_logical",
    "GBTL.C44_min_max",
    "GBTL.C44_arithmetic",
    "GBTL.C44_plus_partial",
    "GBTL.C44_times_partial",
    "GBTL.C44_max_plus_wrong",
    "GBTL.C44_min_times_wrong",
    "GBTL.C44_plus_min_wrong"
   ],
   "note": "The comments' claims for MaxPlus, MinTimes and PlusMin are false: disproved with witnesses. The others are proved."
  },
  {
   "property": "C45",
   "status": "partial",
   "theorems": [
    "GBTL.C45_binary",
    "GBTL.C45_unary",
    "GBTL.C45_div",
    "GBTL.C45_div_undefined",
    "GBTL.C45_mult_inverse",
    "GBTL.C45_bitwise",
    "GBTL.C45_bitwise_same",
    "GBTL.C45_bitwise_not",
    "GBTL.C45_bitwise_bool",
    "GBTL.C45_sign_conversion_wrong",
    "GBTL.C45_abs_min",
    "GBTL.C45_bitwise_not_bool_wrong"
   ],
   "note": "Power (std::pow, computed in floating point) and floating-point scalars are not modelled. BitwiseNot and BitwiseXnor on bool are always true (C45_bitwise_not_bool_wrong)."
  },
  {
   "property": "C46",
   "status": "proved",
   "theorems": [
    "GBTL.C46_batch_sssp"
   ],
   "note": ""
  },
  {
   "property": "C47",
   "status": "partial",
   "theorems": [
    "GBTL.C47_graph_distance",
    "GBTL.C47_graph_distance_rejects",
    "GBTL.C47_wrong_shapes",
    "GBTL.C47_graph_distance_matrix",
    "GBTL.C47_vertex_eccentricity",
    "GBTL.C47_graph_radius",
    "GBTL.C47_graph_diameter",
    "GBTL.C47_closeness_partial",
    "GBTL.C47_closeness_differs"
   ],
   "note": "closeness_centrality returns the sum of distances from the vertex, not the documented reciprocal of the sum of distances to it: disproved with a witness; everything else is proved."
  },
  {
   "property": "C48",
   "status": "proved",
   "theorems": [
    "GBTL.C48_batch_bfs_level",
    "GBTL.C48_batch_rejects",
    "GBTL.C48_bfs_level_matrix"
   ],
   "note": "Level and wavefront scalar types must represent the number of vertices, below 2^32."
  },
  {
   "property": "C49",
   "status": "partial",
   "theorems": [
    "GBTL.C49_bfs_wave_partial",
    "GBTL.C49_bfs_batch_partial",
    "GBTL.C49_narrow_graph_wrong",
    "GBTL.C49_bfs_wave_actual",
    "GBTL.C49_bfs_batch_actual"
   ],
   "note": "Proved when the scalar types of graph and wavefront represent all vertex numbers; disproved for a graph of bool. The _actual theorems say what is stored for any integer scalar types."
  },
  {
   "property": "C50",
   "status": "proved",
   "theorems": [
    "GBTL.C50_mst",
    "GBTL.C50_disconnected",
    "GBTL.C50_rejects",
    "GBTL.C50_argmin"
   ],
   "note": "Integer scalar types in which every sum of fewer than n edge weights is representable."
  },
  {
   "property": "C51",
   "status": "proved",
   "theorems": [
    "GBTL.C51_push_relabel",
    "GBTL.C51_rejects",
    "GBTL.C51_narrow_unsigned_disproof"
   ],
   "note": "Integer scalar types with room for the sum of all capacities, its negation and 2n (so signed, if there is any capacity); for u8 a network that never terminates is proved."
  },
  {
   "property": "C52",
   "status": "partial",
   "theorems": [
    "GBTL.C52_ford_fulk_partial",
    "GBTL.C52_ford_fulk_small_partial",
    "GBTL.C52_disproof"
   ],
   "note": "The result is always a flow's value, and maximal unless it reaches the number of stored capacities. Maximality in general is false (C52_disproof): the loop is limited to nvals() augmentations."
  },
  {
   "property": "C53",
   "status": "proved",
   "theorems": [
    "GBTL.C53_k_truss",
    "GBTL.C53_small_k_unsigned_wrong"
   ],
   "note": "For k < 2 with an unsigned scalar type, where k - 2 is not representable, the result is wrong (C53_small_k_unsigned_wrong)."
  },
  {
   "property": "C54",
   "status": "partial",
   "theorems": [
    "GBTL.C54_delta_step_partial",
    "GBTL.C54_delta_step_nonneg_partial",
    "GBTL.C54_delta_step_actual",
    "GBTL.C54_zero_weight_wrong",
    "GBTL.C54_zero_width_forever"
   ],
   "note": "Proved for positive weights, and for all weights that are not negative if no edge of weight zero leads from the source to another vertex; C54_delta_step_actual says exactly what is returned otherwise: the vertices such an edge leads to are treated as if no edge went out of them. So the result can be wrong (C54_zero_weight_wrong), and with bucket width zero the function does not return (C54_zero_width_forever)."
  },
  {
   "property": "C55",
   "status": "proved",
   "theorems": [
    "GBTL.C55_level_B1",
    "GBTL.C55_level_B2",
    "GBTL.C55_parent_B3",
    "GBTL.C55_no_vertex"
   ],
   "note": "Stored false edges are outside the hypotheses, as in C32."
  },
  {
   "property": "C56",
   "status": "proved",
   "theorems": [
    "GBTL.C56_betweenness_batch",
    "GBTL.C56_betweenness_batch_alt",
    "GBTL.C56_betweenness_batch_alt_trans",
    "GBTL.C56_betweenness_batch_v2",
    "GBTL.C56_betweenness_batch_v2_limit",
    "GBTL.C56_betweenness_dimension"
   ],
   "note": "Rounding of float is not modelled. C56_betweenness_batch_v2_limit shows on a path of 12 vertices that the condition on version 2 cannot be dropped."
  },
  {
   "property": "C57",
   "status": "proved",
   "theorems": [
    "GBTL.C57_vertex_betweenness",
    "GBTL.C57_vertex_betweenness_dimension",
    "GBTL.C57_betweenness_batch_old",
    "GBTL.C57_batch_old_dimension"
   ],
   "note": "Rounding of float is not modelled. For integer scalar types see C58."
  },
  {
   "property": "C58",
   "status": "partial",
   "theorems": [
    "GBTL.C58_appendixB4_actual",
    "GBTL.C58_appendixB4_partial",
    "GBTL.C58_appendixB4_disproof",
    "GBTL.C58_appendixB5_partial",
    "GBTL.C58_appendixB5_throws",
    "GBTL.C58_appendixB5_disproof",
    "GBTL.C58_vertex_betweenness_int_actual",
    "GBTL.C58_vertex_betweenness_int_disproof"
   ],
   "note": "The code does not satisfy the full statement. Proved: B4 for an empty delta, and what it returns for every other delta (paths to t count 1 + delta t times); B5 in the cases in which it does not throw, and that it throws in all others. With integer scalars: what is returned (the number of pairs whose only shortest path visits the vertex). Disproved on concrete graphs: B4 called twice, B5 with one source, integer scalars."
  },
  {
   "property": "C59",
   "status": "partial",
   "theorems": [
    "GBTL.C59_edge_betweenness_partial",
    "GBTL.C59_edge_betweenness_int_partial",
    "GBTL.C59_edge_betweenness_dimension",
    "GBTL.C59_edge_betweenness_disproof",
    "GBTL.C59_score_unique_paths",
    "GBTL.C59_score_not_fractions",
    "GBTL.C59_edge_betweenness_actual",
    "GBTL.C59_edge_betweenness_int_actual"
   ],
   "note": "The code does not satisfy the statement if a vertex has a loop: its row is counted twice (disproof). Proved for all graphs without loops, for exact floating-point arithmetic and for all integer types but bool. C59_edge_betweenness_actual and C59_edge_betweenness_int_actual say what is returned for every graph, with loops too: the paths that begin at a vertex with a loop are counted once more on their first edge, and a loop has the score 2. The score is not the usual edge betweenness centrality, which counts fractions, except where shortest paths are unique: both proved."
  },
  {
   "property": "C60",
   "status": "partial",
   "theorems": [
    "GBTL.C60_normalize_rows",
    "GBTL.C60_normalize_cols_partial",
    "GBTL.C60_normalize_cols_disproof",
    "GBTL.C60_normalize_int_disproof",
    "GBTL.C60_normalize_rows_int",
    "GBTL.C60_normalize_cols_int"
   ],
   "note": "normalize_rows is proved for all shapes in exact arithmetic, normalize_cols for square matrices. The code does not satisfy the rest: normalize_cols throws DimensionException for every matrix that is not square, and in an integer type every row with a sum above 1 becomes zeros (disproofs). C60_normalize_rows_int and C60_normalize_cols_int say what becomes of all rows and columns in an integer type. Rounding, infinities and division by zero are not modelled."
  },
  {
   "property": "C61",
   "status": "partial",
   "theorems": [
    "GBTL.C61_page_rank_partial",
    "GBTL.C61_page_rank_sum_partial",
    "GBTL.C61_page_rank_converges_partial",
    "GBTL.C61_page_rank_dimension",
    "GBTL.C61_page_rank_disproof",
    "GBTL.C61_page_rank_actual",
    "GBTL.C61_grows_wrong"
   ],
   "note": "The code does not satisfy the statement if some vertex has an edge from it but none to it: on the graph with the one edge 0 -> 1, the rank of vertex 1 grows by (1 - d)/n in every round without bound and the loop does not stop before max_iters (disproof, for every max_iters). Proved for all other graphs with positive weights, in exact arithmetic, with the rule by which the loop stops, the sum of the ranks, and convergence. C61_page_rank_actual says what is returned on every graph with positive weights, and C61_grows_wrong that the rank of every vertex with edges from such vertices only grows in every round. The model gives the answer of the project's own test."
  },
  {
   "property": "C62",
   "status": "partial",
   "theorems": [
    "GBTL.C62_peer_pressure",
    "GBTL.C62_peer_pressure_start",
    "GBTL.C62_peer_pressure_v2",
    "GBTL.C62_peer_pressure_dimension",
    "GBTL.C62_peer_pressure_total_partial",
    "GBTL.C62_peer_pressure_parity",
    "GBTL.C62_peer_pressure_total_disproof",
    "GBTL.C62_peer_pressure_members",
    "GBTL.C62_peer_pressure_start_members",
    "GBTL.C62_peer_pressure_v2_members"
   ],
   "note": "The rounds, the tie break, the rule by which the loop stops and the errors are proved for every graph, in exact arithmetic (no row with elements may sum to zero in the normalising version). Every vertex is in at most one cluster; that it is in one is proved if every vertex has an edge to it. The code does not satisfy it otherwise: on the graph with the one edge 0 -> 1 both vertices end in no cluster (disproof, for every max_iters from 2). On two vertices joined by an edge the rounds alternate for ever, so the result is the parity of max_iters. Which vertices are in a cluster after the k rounds made is proved for all graphs, for all three functions: those at the end of a walk of k edges from a vertex that was in one (members)."
  },
  {
   "property": "C63",
   "status": "partial",
   "theorems": [
    "GBTL.C63_cluster_assignments_partial",
    "GBTL.C63_assignments_of_clustering",
    "GBTL.C63_cluster_assignments_disproof",
    "GBTL.C63_cluster_assignments_v2_partial",
    "GBTL.C63_assignments_of_clustering_v2",
    "GBTL.C63_cluster_assignments_v2_disproof",
    "GBTL.C63_cluster_assignments_actual"
   ],
   "note": "get_cluster_assignments is characterised for all matrices with at least as many rows as columns: the first row with the maximum, if the maximum is above -1. With more columns than rows it writes beyond its arrays (disproof), for matrices of any shape exactly when an element is in a column not below the number of rows (actual). get_cluster_assignments_v2 is characterised for all shapes: it gives the last row with an element and ignores the values, which contradicts its documentation (disproof). On the matrix of a clustering both give the clustering."
  },
  {
   "property": "C64",
   "status": "partial",
   "theorems": [
    "GBTL.C64_markov_cluster_partial",
    "GBTL.C64_markov_cluster_columns",
    "GBTL.C64_markov_cluster_dimension",
    "GBTL.C64_markov_cluster_disproof",
    "GBTL.C64_markov_cluster_actual"
   ],
   "note": "The code does not satisfy the statement: mxm(Apower, Apower, ..., Apower, Anorm, REPLACE) uses Apower as its own mask, so the powers are computed only at the positions of the graph's edges; on the path 0 - 1 - 2 with loops the first round is already different (disproof). Proved in full, with the rule by which the loop stops, for graphs with positive weights and transitive edges, in exact arithmetic. The column sums and the positions of the result are proved for every graph with positive weights. C64_markov_cluster_actual says what is returned for every graph with positive weights and all exponents, also 0, for which the counters wrap around: the rounds with the power computed only where it has not become zero."
  },
  {
   "property": "C65",
   "status": "partial",
   "theorems": [
    "GBTL.C65_louvain_returned",
    "GBTL.C65_louvain_partial",
    "GBTL.C65_louvain_throws",
    "GBTL.C65_louvain_total_partial",
    "GBTL.C65_louvain_forever",
    "GBTL.C65_louvain_dimension",
    "GBTL.C65_louvain_disproof",
    "GBTL.C65_louvain_total_disproof",
    "GBTL.C65_louvain_masked_disproof"
   ],
   "note": "The code does not satisfy the statement. The row of a vertex is cleared before the clusters are scored, so only clusters of other vertices are candidates: two vertices with only an edge to themselves are merged, with a lower modularity than apart (disproof). A vertex with edges but no candidate, such as the only vertex of a graph with a loop, or in the masked version any vertex with only a loop, leaves no candidate, and the loop `while (t.nvals() != 1)` never ends (total and masked disproofs, and C65_louvain_forever in general). Proved for every graph with a positive sum of weights and every sequence of random numbers, in exact arithmetic: what is returned is a clustering that no move to a considered cluster improves, reached by the sweeps described; what is thrown; and termination when every vertex with edges has a candidate and no two random numbers are equal."
  },
  {
   "property": "C66",
   "status": "partial",
   "theorems": [
    "GBTL.C66_louvain_assignments_partial",
    "GBTL.C66_assignments_of_louvain",
    "GBTL.C66_louvain_assignments_disproof",
    "GBTL.C66_louvain_assignments_actual"
   ],
   "note": "Not true of matrices with more or fewer clusters than vertices: the result has as many entries as the matrix has columns and the index vector as many as it has rows, so mxv throws DimensionException (disproof; for every matrix that is not square: actual). Proved for all square matrices, including those that louvain_cluster returns."
  },
  {
   "property": "C67",
   "status": "partial",
   "theorems": [
    "GBTL.C67_program_partial",
    "GBTL.C67_representation_partial",
    "GBTL.C67_frame",
    "GBTL.C67_shared_mask",
    "GBTL.C67_unhandled_wrong",
    "GBTL.C67_program_repeats_partial",
    "GBTL.C67_program_repeats_unseen_partial",
    "GBTL.C67_literal",
    "GBTL.C67_program_literal_partial"
   ],
   "note": "Proved for every program whose calls are handled. C67_program_repeats_partial also takes in vector builds with repeated indices: it says exactly what such programs see, nvals and == of vectors included; C67_program_repeats_unseen_partial says that nothing else shows them. C67_literal and C67_program_literal_partial also take in all operators: a program runs as the one with the operators the code calls, which differ for transposed operands. Missing from C67_program_partial are the calls that the code is known to get wrong: a vector build with a repeated index (C03), mxm/mxv/eWise operations with transposed operands and mixed scalar types (C10, C12, C13, C14), assignment of a constant with unsorted indices (C20), Kronecker products whose shape overflows (C22), AllIndices with different lengths (C26), the empty dense matrix (C42); and what GraphBLAS leaves undefined. C67_unhandled_wrong shows that without exclusions the statement is false. The frame and shared-mask theorems hold without exclusions. Sequential backend; mxm of the optimized backend is C28."
  },
  {
   "property": "C68",
   "status": "proved",
   "theorems": [
    "GBTL.C68_range_iterates",
    "GBTL.C68_range_elements",
    "GBTL.C68_reversed_range",
    "GBTL.C68_extract_slice",
    "GBTL.C68_extract_block",
    "GBTL.C68_assign_slice",
    "GBTL.C68_assign_block",
    "GBTL.C68_assign_const_slice",
    "GBTL.C68_assign_const_block",
    "GBTL.C68_reversed_vector",
    "GBTL.C68_reversed_matrix",
    "GBTL.C68_extract_column_slice",
    "GBTL.C68_assign_column_slice",
    "GBTL.C68_assign_row_slice",
    "GBTL.C68_reversed_column"
   ],
   "note": ""
  },
  {
   "property": "C69",
   "status": "partial",
   "theorems": [
    "GBTL.C69_consistent_safe",
    "GBTL.C69_call_partial",
    "GBTL.C69_program_partial",
    "GBTL.C69_tuples_in_shape",
    "GBTL.C69_vector_tuples_in_shape",
    "GBTL.C69_unbounded_wrong",
    "GBTL.C69_optimized_call_partial",
    "GBTL.C69_optimized_program_partial",
    "GBTL.C69_optimized_unbounded_wrong"
   ],
   "note": "The full claim is false: `C69_unbounded_wrong` has a program for each exclusion (dense matrix constructor with no rows, assign with AllIndices of a larger source, Kronecker product whose shape wraps around 2^64). Proved for all other calls and programs, with both CPU backends (`C69_optimized_...` for optimized_sequential, including mxm whose operands or mask are the output)."
  },
  {
   "property": "C70",
   "status": "proved",
   "theorems": [
    "GBTL.C70_mxm_associative",
    "GBTL.C70_mxm_distributes_left",
    "GBTL.C70_mxm_distributes_right",
    "GBTL.C70_transpose_of_product",
    "GBTL.C70_mxv_of_product",
    "GBTL.C70_vxm_of_product",
    "GBTL.C70_mxv_is_vxm",
    "GBTL.C70_mxv_is_vxm_view",
    "GBTL.C70_column_of_product",
    "GBTL.C70_identity_left",
    "GBTL.C70_identity_right",
    "GBTL.C70_reduce_is_mxv",
    "GBTL.C70_mxv_linear",
    "GBTL.C70_predefined",
    "GBTL.C70_min_plus_wrong"
   ],
   "note": "For operators that satisfy the laws; where the code exchanges the arguments of the multiplication (both operands transposed, or mxv with a transposed matrix, see C10 and C12) it must be commutative. C70_predefined lists the predefined semirings and integer types that qualify; C70_min_plus_wrong shows one that does not."
  },
  {
   "property": "C71",
   "status": "proved",
   "theorems": [
    "GBTL.C71_eWiseAdd_associative",
    "GBTL.C71_eWiseMult_associative",
    "GBTL.C71_eWise_commutative",
    "GBTL.C71_eWise_idempotent",
    "GBTL.C71_eWise_distributes",
    "GBTL.C71_vector_associative",
    "GBTL.C71_vector_commutative",
    "GBTL.C71_apply_composes",
    "GBTL.C71_apply_identity",
    "GBTL.C71_apply_homomorphism",
    "GBTL.C71_transpose_of_eWise",
    "GBTL.C71_transpose_of_apply",
    "GBTL.C71_reduce_of_eWiseAdd",
    "GBTL.C71_reduce_in_two_steps"
   ],
   "note": "Reducing by columns and then to a scalar needs a commutative operator, by rows it does not."
  },
  {
   "property": "C72",
   "status": "proved",
   "theorems": [
    "GBTL.C72_mask_then_complement",
    "GBTL.C72_vector_mask_then_complement",
    "GBTL.C72_mask_partition",
    "GBTL.C72_mask_afterwards",
    "GBTL.C72_vector_mask_afterwards",
    "GBTL.C72_accumulate_afterwards",
    "GBTL.C72_vector_accumulate_afterwards",
    "GBTL.C72_repeat",
    "GBTL.C72_vector_repeat",
    "GBTL.C72_repeat_accumulated"
   ],
   "note": "The output is none of the operands (aliasing is C29). The accumulate and repeat laws are about the operations other than assign, which keeps what it does not select."
  },
  {
   "property": "C73",
   "status": "proved",
   "theorems": [
    "GBTL.C73_mixed_product",
    "GBTL.C73_associative",
    "GBTL.C73_transpose",
    "GBTL.C73_distributes_left",
    "GBTL.C73_distributes_right",
    "GBTL.C73_identity"
   ],
   "note": "The products of the dimensions must be below 2^64."
  },
  {
   "property": "C74",
   "status": "proved",
   "theorems": [
    "GBTL.C74_extract_of_assign",
    "GBTL.C74_vector_extract_of_assign",
    "GBTL.C74_assign_of_extract",
    "GBTL.C74_vector_assign_of_extract",
    "GBTL.C74_extract_of_extract",
    "GBTL.C74_permute_back",
    "GBTL.C74_extract_all",
    "GBTL.C74_assign_all",
    "GBTL.C74_extract_transposed",
    "GBTL.C74_extract_of_product",
    "GBTL.C74_extract_of_eWise",
    "GBTL.C74_extract_of_apply",
    "GBTL.C74_assign_disjoint",
    "GBTL.C74_assign_overwrites"
   ],
   "note": "Repeated indices are allowed in extract; assign with repeated indices is C19."
  },
  {
   "property": "C75",
   "status": "partial",
   "theorems": [
    "GBTL.C75_vector_partial",
    "GBTL.C75_vector_writes",
    "GBTL.C75_matrix",
    "GBTL.C75_matrix_short",
    "GBTL.C75_vector_copy_partial",
    "GBTL.C75_matrix_copy",
    "GBTL.C75_fill_overruns",
    "GBTL.C75_build_leaves_rest",
    "GBTL.C75_diag_of_build_wrong"
   ],
   "note": "Proved for all consistent matrices and vectors. Refuted for Vector(n, value), which reports nvals() = 0 and so writes past the arrays, and for a vector built with repeated indices, which reports too many elements: the last places keep what the caller had there, and diag() of it stores an element the vector does not have."
  },
  {
   "property": "C76",
   "status": "partial",
   "theorems": [
    "GBTL.C76_vector_text_partial",
    "GBTL.C76_matrix_text",
    "GBTL.C76_vector_determined_partial",
    "GBTL.C76_matrix_determined_partial",
    "GBTL.C76_decimal_readable",
    "GBTL.C76_characters_ambiguous",
    "GBTL.C76_empty_vector_undefined"
   ],
   "note": "The text determines the content when values are written without commas and ends of line, differently from each other and from the mark of an empty position; decimal integers are. Refuted for int8_t and uint8_t, written as characters: a stored 45 in a vector, or 32 in a matrix, looks like an empty position. Refuted for Vector(0, value), whose printing reads the bit of position 0. Floating-point types are not modelled: with the stream's default precision different values can print the same. The state of the stream is not modelled."
  },
  {
   "property": "C77",
   "status": "proved",
   "theorems": [
    "GBTL.C77_arguments_only",
    "GBTL.C77_either_order",
    "GBTL.C77_any_schedule",
    "GBTL.C77_can_finish",
    "GBTL.C77_deterministic",
    "GBTL.C77_meaning_of_handled",
    "GBTL.C77_meaning_of_handled_optimized",
    "GBTL.C77_sharing_written_wrong"
   ],
   "note": "The header files have no static, thread_local or mutable data and no locks (checked by reading). A running call is modelled as reading whole containers at any times while it runs and leaving anything in its outputs before it ends; the memory model of C++ below that is not modelled, but threads that keep to the rule have no data races, so it does not matter. C77_sharing_written_wrong shows that a reader of a container that another thread is changing can get an answer that no order of the calls gives. Calls with logging enabled write to a shared stream, which is not modelled."
  },
  {
   "property": "C78",
   "status": "proved",
   "theorems": [
    "GBTL.C78_number_of_triangles",
    "GBTL.C78_triangle_count",
    "GBTL.C78_masked",
    "GBTL.C78_appendixB7",
    "GBTL.C78_demo_counts",
    "GBTL.C78_no_file"
   ],
   "note": "Bounds as in C38: the number of vertices and twice the number of triangles must fit the scalar type, int32_t in the demo. A file is modelled as the list of its numbers; other text in the file and numbers beyond 64 bits are not modelled."
  },
  {
   "property": "C79",
   "status": "partial",
   "theorems": [
    "GBTL.C79_demo_prints_partial",
    "GBTL.C79_rows_wrong",
    "GBTL.C79_degree_wrong",
    "GBTL.C79_empty_file_undefined",
    "GBTL.C79_relabelling_wrong"
   ],
   "note": "Proved: nodes, order and degrees except for one vertex. Refuted: the number of rows printed is one too many for every file of pairs; the degree of the vertex the last row begins with is one too many unless that row is a loop; an empty file makes the program use uninitialised variables; the relabelling uses the inverse of the sorted order, so the vertex of largest degree need not become vertex 0 (the counts are not affected, C78)."
  },
  {
   "property": "C80",
   "status": "partial",
   "theorems": [
    "GBTL.C80_bfs_levels",
    "GBTL.C80_bfs_batch",
    "GBTL.C80_sssp_batch",
    "GBTL.C80_apsp_sssp",
    "GBTL.C80_delta_step_sssp",
    "GBTL.C80_bfs_sssp",
    "GBTL.C80_max_flow",
    "GBTL.C80_k_truss",
    "GBTL.C80_apsp_sssp_actual",
    "GBTL.C80_delta_step_nonneg",
    "GBTL.C80_delta_step_actual",
    "GBTL.C80_filtered_sssp",
    "GBTL.C80_max_flow_wrong",
    "GBTL.C80_apsp_loop_wrong"
   ],
   "note": "Proved for all inputs in the ranges of the claims used, except: maxflow_ford_fulk finds a flow that is at most that of maxflow_push_relabel and equals it if it is below the number of stored capacities; the two differ on a network given (C80_max_flow_wrong). apsp and sssp agree on graphs without loops of positive weight and differ on a loop (C80_apsp_loop_wrong), but only in the diagonal element of a vertex with a loop (C80_apsp_sssp_actual). Delta stepping and filtered_sssp agree with sssp where C54 and C36 hold; delta stepping is never below sssp (C80_delta_step_actual)."
  },
  {
   "property": "C81",
   "status": "proved",
   "theorems": [
    "GBTL.C81_bfs_level",
    "GBTL.C81_sssp",
    "GBTL.C81_push_relabel",
    "GBTL.C81_k_truss2"
   ],
   "note": "Stated for bfs_level, sssp, maxflow_push_relabel and k_truss2; by C80 it carries over to the other searches from one vertex and to delta stepping. Triangle counting is C78."
  },
  {
   "property": "C82",
   "status": "partial",
   "theorems": [
    "GBTL.C82_call_partial",
    "GBTL.C82_program_partial",
    "GBTL.C82_one_type_partial",
    "GBTL.C82_frame",
    "GBTL.C82_stale_rows_wrong"
   ],
   "note": "Proved for programs whose mxm calls lose nothing in the conversions the optimized kernels add (always so with one scalar type) and that do not call mxm without mask and accumulator for A * transpose(B) into an output with entries in a row where A has none. For such a call the backends differ: C82_stale_rows_wrong."
  },
  {
   "property": "C83",
   "status": "proved",
   "theorems": [
    "GBTL.C83_triangle_count",
    "GBTL.C83_triangle_count_masked",
    "GBTL.C83_triangle_count_masked_T",
    "GBTL.C83_triangle_count_masked_noT",
    "GBTL.C83_triangle_count_new",
    "GBTL.C83_triangle_count_B7",
    "GBTL.C83_batch_sssp",
    "GBTL.C83_apsp",
    "GBTL.C83_batch_bfs_level",
    "GBTL.C83_bfs_level_matrix",
    "GBTL.C83_bfs_batch",
    "GBTL.C83_k_truss2",
    "GBTL.C83_k_truss",
    "GBTL.C83_normalize_rows",
    "GBTL.C83_normalize_cols",
    "GBTL.C83_peer_pressure",
    "GBTL.C83_peer_pressure_id",
    "GBTL.C83_peer_pressure_v2",
    "GBTL.C83_markov_cluster",
    "GBTL.C83_bc_batch",
    "GBTL.C83_bc_alt",
    "GBTL.C83_bc_alt_trans",
    "GBTL.C83_bc_alt_trans_v2",
    "GBTL.C83_bc_old",
    "GBTL.C83_bc_B5",
    "GBTL.C83_edge_bc"
   ],
   "note": "For the algorithms that call mxm; the others run the same code on both backends. The exception of C28 and C82, A * transpose(B) without mask and accumulator into an output with other rows, does not occur in the algorithms: this is what the proofs establish call by call."
  },
  {
   "property": "C84",
   "status": "proved",
   "theorems": [
    "GBTL.C84_sssp_bellman",
    "GBTL.C84_sssp_monotone",
    "GBTL.C84_sssp_scale",
    "GBTL.C84_bfs_monotone",
    "GBTL.C84_apsp_triangle",
    "GBTL.C84_apsp_reverse",
    "GBTL.C84_apsp_symmetric"
   ],
   "note": "The laws for all pairs assume no loop of positive weight: with one, apsp does not give distances (see C37)."
  },
  {
   "property": "C85",
   "status": "proved",
   "theorems": [
    "GBTL.C85_min_cut",
    "GBTL.C85_monotone",
    "GBTL.C85_reverse",
    "GBTL.C85_scale"
   ],
   "note": "For the calls for which C51 shows that the maximum flow is returned."
  },
  {
   "property": "C86",
   "status": "proved",
   "theorems": [
    "GBTL.C86_truss_nested",
    "GBTL.C86_truss_again",
    "GBTL.C86_truss_incidence_nested",
    "GBTL.C86_triangles_monotone",
    "GBTL.C86_triangles_of_truss"
   ],
   "note": "k_truss2 for k of 3 and more; for smaller k it is not the k-truss (see C39)."
  },
  {
   "property": "C87",
   "status": "partial",
   "theorems": [
    "GBTL.C87_again",
    "GBTL.C87_chain",
    "GBTL.C87_matrix",
    "GBTL.C87_demo_partial",
    "GBTL.C87_demo_no_edges",
    "GBTL.C87_empty_throws",
    "GBTL.C87_demo_wrong"
   ],
   "note": "The code does not satisfy the second sentence if a truss before the last has no edges: k_truss returns an empty matrix but throws InvalidValueException when it is given one (C87_empty_throws), so the program ends with an uncaught exception (C87_demo_wrong). Proved otherwise, with the output up to that point."
  },
  {
   "property": "C88",
   "status": "proved",
   "theorems": [
    "GBTL.C88_total",
    "GBTL.C88_bounds",
    "GBTL.C88_positive",
    "GBTL.C88_end",
    "GBTL.C88_batches",
    "GBTL.C88_renumbered",
    "GBTL.C88_reversed",
    "GBTL.C88_vertex",
    "GBTL.C88_vertex_reversed",
    "GBTL.C88_edge_total",
    "GBTL.C88_edge_reversed",
    "GBTL.C88_edge_flow",
    "GBTL.C88_edge_bounds"
   ],
   "note": "For path counts that fit the counter types, as in C56 and C59; the edge laws for graphs without loops. The 10-round variant is left out (C56). Scores are exact rationals."
  },
  {
   "property": "C89",
   "status": "partial",
   "theorems": [
    "GBTL.C89_graph_partial",
    "GBTL.C89_clusters_partial",
    "GBTL.C89_phantom_edge_wrong",
    "GBTL.C89_first_vertex_throws",
    "GBTL.C89_empty_file_undefined"
   ],
   "note": "The demo reads past the end of the file: C89_graph_partial characterises the graph it builds for every file whose last row does not name vertex 1, with the additional edge; C89_phantom_edge_wrong shows for which of them the graph is wrong, C89_first_vertex_throws that all other files end in an exception. C89_clusters_partial: what is printed are clusterings of the graph with the additional edge."
  },
  {
   "property": "C90",
   "status": "partial",
   "theorems": [
    "GBTL.C90_start",
    "GBTL.C90_renumbered",
    "GBTL.C90_scaled",
    "GBTL.C90_twins",
    "GBTL.C90_no_edge_to",
    "GBTL.C90_bounds_partial",
    "GBTL.C90_undamped_partial",
    "GBTL.C90_regular_partial",
    "GBTL.C90_bounds_wrong",
    "GBTL.C90_undamped_wrong"
   ],
   "note": "The first five laws hold for every graph. The bounds and the equal ranks are proved for the graphs of C61, in which every vertex with an edge from it has an edge to it; on the others a rank can grow in every round, which C90_bounds_wrong and C90_undamped_wrong show. Exact numbers stand for floating point."
  },
  {
   "property": "C91",
   "status": "proved",
   "theorems": [
    "GBTL.C91_renumbered",
    "GBTL.C91_rescaled",
    "GBTL.C91_monotone",
    "GBTL.C91_cut",
    "GBTL.C91_bottleneck"
   ],
   "note": "For every scalar type and every overflow behaviour, as in C50."
  },
  {
   "property": "C92",
   "status": "proved",
   "theorems": [
    "GBTL.C92_renumbered",
    "GBTL.C92_chain",
    "GBTL.C92_metric",
    "GBTL.C92_twice",
    "GBTL.C92_closeness"
   ],
   "note": "For every overflow behaviour, as in C47. That closeness_centrality is not the documented reciprocal is C47_closeness_differs."
  },
  {
   "property": "C93",
   "status": "partial",
   "theorems": [
    "GBTL.C93_peer_pressure",
    "GBTL.C93_peer_pressure_from",
    "GBTL.C93_peer_pressure_scaled",
    "GBTL.C93_markov",
    "GBTL.C93_markov_scaled",
    "GBTL.C93_louvain_masked",
    "GBTL.C93_louvain_partial",
    "GBTL.C93_louvain_wrong"
   ],
   "note": "Proved for all functions but louvain_cluster, and for that one on graphs without loops. False with loops: a vertex with an edge only to itself is moved to the cluster of a vertex that it has no connection to (C93_louvain_wrong)."
  },
  {
   "property": "C94",
   "status": "proved",
   "theorems": [
    "GBTL.C94_size_upper",
    "GBTL.C94_size_lower",
    "GBTL.C94_size_degree",
    "GBTL.C94_two_runs",
    "GBTL.C94_complete",
    "GBTL.C94_isolated",
    "GBTL.C94_same_set",
    "GBTL.C94_renumber",
    "GBTL.C94_local_maximum",
    "GBTL.C94_returns"
   ],
   "note": ""
  },
  {
   "property": "C95",
   "status": "proved",
   "theorems": [
    "GBTL.C95_every_operation",
    "GBTL.C95_reduce_scalar",
    "GBTL.C95_assign_column_row",
    "GBTL.C95_believed_consistent",
    "GBTL.C95_operation_repairs",
    "GBTL.C95_methods_after_build",
    "GBTL.C95_fill_believed_empty"
   ],
   "note": "The vectors the operands are taken for are consistent, so that the theorems of C11 to C21 say what is computed of them. Method calls on a vector that reports too few elements are not covered: removing an element from it makes the count wrap around."
  },
  {
   "property": "C96",
   "status": "partial",
   "theorems": [
    "GBTL.C96_mxm_unchanged",
    "GBTL.C96_vxm_unchanged",
    "GBTL.C96_mxv_unchanged",
    "GBTL.C96_eWiseAddV_unchanged",
    "GBTL.C96_eWiseAddM_unchanged",
    "GBTL.C96_eWiseMultV_unchanged",
    "GBTL.C96_eWiseMultM_unchanged",
    "GBTL.C96_applyV_unchanged",
    "GBTL.C96_applyM_unchanged",
    "GBTL.C96_reduceMV_unchanged",
    "GBTL.C96_reduceVS_unchanged",
    "GBTL.C96_reduceMS_unchanged",
    "GBTL.C96_kronecker_unchanged",
    "GBTL.C96_extractV_unchanged",
    "GBTL.C96_extractM_unchanged",
    "GBTL.C96_transpose_unchanged",
    "GBTL.C96_assignV_unchanged",
    "GBTL.C96_assignM_unchanged",
    "GBTL.C96_vecBuild_unchanged",
    "GBTL.C96_output_unchanged_partial",
    "GBTL.C96_mxm_as_function",
    "GBTL.C96_vxm_as_function",
    "GBTL.C96_mxv_as_function",
    "GBTL.C96_eWiseAddV_as_function",
    "GBTL.C96_eWiseAddM_as_function",
    "GBTL.C96_eWiseMultV_as_function",
    "GBTL.C96_eWiseMultM_as_function",
    "GBTL.C96_applyV_as_function",
    "GBTL.C96_applyM_as_function",
    "GBTL.C96_reduceMV_as_function",
    "GBTL.C96_reduceVS_as_function",
    "GBTL.C96_reduceMS_as_function",
    "GBTL.C96_kronecker_as_function",
    "GBTL.C96_extractV_as_function",
    "GBTL.C96_extractM_as_function",
    "GBTL.C96_transpose_as_function",
    "GBTL.C96_assignV_as_function",
    "GBTL.C96_assignM_as_function",
    "GBTL.C96_vecBuild_as_function",
    "GBTL.C96_matBuild_as_function",
    "GBTL.C96_applyV_calls",
    "GBTL.C96_applyM_calls",
    "GBTL.C96_applyM_calls_tr",
    "GBTL.C96_eWiseAddV_calls",
    "GBTL.C96_eWiseMultV_calls",
    "GBTL.C96_eWiseAddM_calls",
    "GBTL.C96_eWiseAddM_calls_tr1",
    "GBTL.C96_eWiseAddM_calls_tr2",
    "GBTL.C96_eWiseAddM_calls_tr12",
    "GBTL.C96_eWiseMultM_calls",
    "GBTL.C96_eWiseMultM_calls_tr1",
    "GBTL.C96_eWiseMultM_calls_tr2",
    "GBTL.C96_eWiseMultM_calls_tr12",
    "GBTL.C96_reduceMV_calls",
    "GBTL.C96_reduceVS_calls",
    "GBTL.C96_reduceMS_calls",
    "GBTL.C96_mxv_calls",
    "GBTL.C96_vxm_calls_tr",
    "GBTL.C96_mxm_calls_tr2",
    "GBTL.C96_vxm_calls",
    "GBTL.C96_mxv_calls_tr",
    "GBTL.C96_reduceMV_calls_tr",
    "GBTL.C96_mxm_calls",
    "GBTL.C96_mxm_calls_tr1",
    "GBTL.C96_mxm_calls_tr12",
    "GBTL.C96_kronecker_calls",
    "GBTL.C96_kronecker_calls_tr1",
    "GBTL.C96_kronecker_calls_tr2",
    "GBTL.C96_kronecker_calls_tr12",
    "GBTL.C96_transpose_calls",
    "GBTL.C96_extractV_calls",
    "GBTL.C96_extractM_calls",
    "GBTL.C96_assignV_calls",
    "GBTL.C96_assignM_calls",
    "GBTL.C96_extractC_unchanged",
    "GBTL.C96_assignConstV_unchanged",
    "GBTL.C96_assignConstM_unchanged",
    "GBTL.C96_assignCol_unchanged",
    "GBTL.C96_assignRow_unchanged",
    "GBTL.C96_extractC_as_function",
    "GBTL.C96_assignConstV_as_function",
    "GBTL.C96_assignConstM_as_function",
    "GBTL.C96_assignCol_as_function",
    "GBTL.C96_assignRow_as_function",
    "GBTL.C96_extractC_calls",
    "GBTL.C96_assignConstV_calls",
    "GBTL.C96_assignConstM_calls",
    "GBTL.C96_assignCol_calls",
    "GBTL.C96_assignRow_calls",
    "GBTL.C96_vecBuild_calls",
    "GBTL.C96_matBuild_calls",
    "GBTL.C96_matBuild_wrong",
    "GBTL.C96_matBuild_actual",
    "GBTL.C96_opt_mxm_wrong",
    "GBTL.C96_opt_mxm_actual"
   ],
   "note": "Wrong for Matrix::build, which keeps the tuples it stored before dup threw, and for mxm of the optimized_sequential backend, which keeps the rows it stored (C96_matBuild_actual, C96_opt_mxm_actual). The order of the calls is proved for apply, eWiseAdd, eWiseMult, reduce, mxv, vxm, mxm and kronecker, each with plain and transposed operands, for the accumulator of transpose, extract (also of a column) and assign (also to a row or column, or of a constant under the index lists of C20), and for dup in build."
  },
  {
   "property": "C97",
   "status": "partial",
   "theorems": [
    "GBTL.C97_bfs_level",
    "GBTL.C97_bfs_level_masked",
    "GBTL.C97_bfs_level_masked_levels",
    "GBTL.C97_bfs_level_masked_v2_levels",
    "GBTL.C97_batch_bfs_level",
    "GBTL.C97_batch_bfs_level_levels",
    "GBTL.C97_bfs_level_matrix",
    "GBTL.C97_bfs_parents",
    "GBTL.C97_bfs_wavefront",
    "GBTL.C97_bfs_wavefront_graph",
    "GBTL.C97_bfs_batch",
    "GBTL.C97_bfs_batch_graph",
    "GBTL.C97_bfs_B1",
    "GBTL.C97_bfs_B2",
    "GBTL.C97_bfs_B3",
    "GBTL.C97_sssp",
    "GBTL.C97_batch_sssp",
    "GBTL.C97_apsp",
    "GBTL.C97_delta_step",
    "GBTL.C97_graph_distance",
    "GBTL.C97_closeness",
    "GBTL.C97_vertex_eccentricity",
    "GBTL.C97_graph_distance_matrix",
    "GBTL.C97_radius_diameter",
    "GBTL.C97_triangle_count",
    "GBTL.C97_triangle_masked",
    "GBTL.C97_triangle_lower",
    "GBTL.C97_triangle_new",
    "GBTL.C97_k_truss",
    "GBTL.C97_mis",
    "GBTL.C97_mis_B6_set",
    "GBTL.C97_mst",
    "GBTL.C97_peer_pressure",
    "GBTL.C97_page_rank",
    "GBTL.C97_markov",
    "GBTL.C97_louvain",
    "GBTL.C97_louvain_assignments",
    "GBTL.C97_betweenness_batch",
    "GBTL.C97_betweenness",
    "GBTL.C97_edge_betweenness",
    "GBTL.C97_betweenness_B4",
    "GBTL.C97_ford_fulkerson_vertices",
    "GBTL.C97_ford_fulkerson",
    "GBTL.C97_push_relabel_source",
    "GBTL.C97_delta_step_paths",
    "GBTL.C97_push_relabel_sink_wrong",
    "GBTL.C97_push_relabel_wrong",
    "GBTL.C97_mis_B6_wrong",
    "GBTL.C97_triangle_masked_wrong",
    "GBTL.C97_bfs_level_matrix_actual",
    "GBTL.C97_bfs_level_masked_actual"
   ],
   "note": "Wrong for maxflow_push_relabel, which accepts a sink that is not a vertex and a graph with more columns than rows; for mis_appendixB6 on a graph without edges that is not square; for triangle_count_masked(L, U), whose first part need not be square; and for the level traversals started with empty wavefronts, which return the levels unchanged. sssp_delta_step refuses paths of another size only after it has computed the distances, so only that it never returns is proved. get_cluster_assignments has undefined behaviour on a matrix with more columns than rows (C63)."
  },
  {
   "property": "C98",
   "status": "partial",
   "theorems": [
    "GBTL.C98_vector_operation",
    "GBTL.C98_vector_operation_throws",
    "GBTL.C98_vector_build",
    "GBTL.C98_vector_assign",
    "GBTL.C98_vector_clear",
    "GBTL.C98_vector_resize",
    "GBTL.C98_setElement",
    "GBTL.C98_matrix_resize",
    "GBTL.C98_matrix_build",
    "GBTL.C98_matrix_operation_throws",
    "GBTL.C98_matrix_operation_early",
    "GBTL.C98_matrix_operation_actual",
    "GBTL.C98_matrix_operation_partial",
    "GBTL.C98_assign_column",
    "GBTL.C98_assign_row_actual",
    "GBTL.C98_matrix_assign_actual",
    "GBTL.C98_matrix_operation_wrong",
    "GBTL.C98_assign_row_wrong",
    "GBTL.C98_matrix_assign_wrong"
   ],
   "note": "Proved for vectors (every operation, build, assignment, clear; resize leaves the vector the same to its user), for setElement and resize of a matrix and for calls that throw for another reason. Wrong for matrix operations, row assignments and copies of matrices: nvals counts elements that are not there, the old row is gone, and part of the rows is written. What is left exactly is proved, and that it is a matrix of the same shape with sorted rows of old and new elements. build of a matrix and column assignment leave consistent matrices that are partly written."
  },
  {
   "property": "C99",
   "status": "proved",
   "theorems": [
    "GBTL.C99_matrix_operation",
    "GBTL.C99_matrix_operation_result",
    "GBTL.C99_unmasked_operation_repairs",
    "GBTL.C99_vector_operation",
    "GBTL.C99_reduce_scalar",
    "GBTL.C99_assign_row_column",
    "GBTL.C99_methods",
    "GBTL.C99_copy",
    "GBTL.C99_equality",
    "GBTL.C99_after_bad_alloc"
   ],
   "note": "Operations with a matrix or a vector as output, reduction to a scalar, assignment to a row or a column, method calls, copies and comparison; C99_after_bad_alloc shows that these are the matrices of C98."
  }
 ]
}