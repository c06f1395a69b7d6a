{
 "claims": [
  {
   "property": "C01",
   "status": "proved",
   "theorems": [
    "Linalg.C01_mult",
    "Linalg.C01_mult_output_irrelevant",
    "Linalg.C01_mult_rejects",
    "Linalg.C01_multVec"
   ],
   "note": "exact arithmetic over any semiring; input and output vectors do not alias"
  },
  {
   "property": "C02",
   "status": "proved",
   "theorems": [
    "Linalg.C02_multATVec",
    "Linalg.C02_multAT",
    "Linalg.C02_multAT_rejects",
    "Linalg.C02_adjoint"
   ],
   "note": "exact arithmetic; adjointness over any commutative semiring"
  },
  {
   "property": "C03",
   "status": "proved",
   "theorems": [
    "Linalg.C03_transpose",
    "Linalg.C03_transpose_coef",
    "Linalg.C03_transpose_sorted",
    "Linalg.C03_transpose_twice",
    "Linalg.C03_transpose_involutive"
   ],
   "note": ""
  },
  {
   "property": "C04",
   "status": "proved",
   "theorems": [
    "Linalg.C04_mult_marker",
    "Linalg.C04_marker_irrelevant",
    "Linalg.C04_mult",
    "Linalg.C04_pattern",
    "Linalg.C04_rejects",
    "Linalg.C04_assoc_vec"
   ],
   "note": ""
  },
  {
   "property": "C05",
   "status": "proved",
   "theorems": [
    "Linalg.C05_sortIndices",
    "Linalg.C05_sortIndices_coef",
    "Linalg.C05_sortIndices_unique"
   ],
   "note": "std::sort is a parameter assumed to return a sorted permutation"
  },
  {
   "property": "C06",
   "status": "partial",
   "theorems": [
    "Linalg.C06_transposeDense_partial",
    "Linalg.C06_transposeDense_false",
    "Linalg.C06_toDenseInto_last",
    "Linalg.C06_toDense_last",
    "Linalg.C06_toDense_partial",
    "Linalg.C06_toDense_false",
    "Linalg.C06_transposeDense_last"
   ],
   "note": "the unrestricted claim is false of the code: with a column stored twice in a row, ToDense keeps the last value where Mult adds (negation proved); exact behaviour proved for every well-formed matrix, the claim itself when no row stores a column twice"
  },
  {
   "property": "C07",
   "status": "proved",
   "theorems": [
    "Linalg.C07_repeats",
    "Linalg.C07_repeats_coef",
    "Linalg.C07_getSubMatrix",
    "Linalg.C07_getSubMatrix_alloc",
    "Linalg.C07_getSubMatrix_coef",
    "Linalg.C07_rejects",
    "Linalg.C07_history",
    "Linalg.C07_duplicate_cols_false"
   ],
   "note": "With a repeated column the claimed entries are in its last copy only (C07_repeats_coef); the failure for the other copies is proved."
  },
  {
   "property": "C08",
   "status": "proved",
   "theorems": [
    "Linalg.C08_eliminateZeros",
    "Linalg.C08_eliminateZeros_default"
   ],
   "note": ""
  },
  {
   "property": "C09",
   "status": "proved",
   "theorems": [
    "Linalg.C09_eliminateRow",
    "Linalg.C09_eliminateRow_coef",
    "Linalg.C09_eliminateCol",
    "Linalg.C09_eliminateCol_coef",
    "Linalg.C09_eliminateColMarker",
    "Linalg.C09_eliminateColMarker_coef",
    "Linalg.C09_eliminateRowCol",
    "Linalg.C09_eliminateRowColMarker",
    "Linalg.C09_eliminateRowColMarker_coef",
    "Linalg.C09_eliminateColRhs",
    "Linalg.C09_eliminateColRhs_residual"
   ],
   "note": ""
  },
  {
   "property": "C10",
   "status": "partial",
   "theorems": [
    "Linalg.C10_getDiag_last",
    "Linalg.C10_getDiag_partial",
    "Linalg.C10_getDiag_false",
    "Linalg.C10_addDiag",
    "Linalg.C10_addDiagVal",
    "Linalg.C10_addDiag_coef_partial",
    "Linalg.C10_addDiag_false"
   ],
   "note": "the unrestricted claim is false of the code (last duplicate wins / every duplicate is bumped / absent diagonal entries are skipped); negations proved, exact effect proved for all inputs, the claim itself under no-duplicates and a stored diagonal"
  },
  {
   "property": "C11",
   "status": "partial",
   "theorems": [
    "Linalg.C11_diag",
    "Linalg.C11_constructor_unsafe",
    "Linalg.C11_constructor_accepts_decreasing",
    "Linalg.C11_constructor_partial",
    "Linalg.C11_constructor_accepts_wf",
    "Linalg.C11_other_constructors"
   ],
   "note": "the claim is false of the code: the constructor accepts malformed row pointers; negation proved, plus the claim under the two missing conditions"
  },
  {
   "property": "C12",
   "status": "proved",
   "theorems": [
    "Linalg.C12_inverseScale_zero",
    "Linalg.C12_scaleRows",
    "Linalg.C12_scaleRows_coef",
    "Linalg.C12_scaleCols",
    "Linalg.C12_scaleCols_coef",
    "Linalg.C12_inverseScaleRows",
    "Linalg.C12_inverseScaleCols",
    "Linalg.C12_scaleRows_inverse",
    "Linalg.C12_scaleCols_inverse",
    "Linalg.C12_scale_by_diagonal_matrix",
    "Linalg.C12_inverseScale_by_diagonal_matrix",
    "Linalg.C12_scale_rejects"
   ],
   "note": ""
  },
  {
   "property": "C13",
   "status": "proved",
   "theorems": [
    "Linalg.C13_permuteCols",
    "Linalg.C13_permuteCols_coef",
    "Linalg.C13_permuteCols_inverse"
   ],
   "note": ""
  },
  {
   "property": "C14",
   "status": "proved",
   "theorems": [
    "Linalg.C14_multDenseInto",
    "Linalg.C14_multCTDenseInto",
    "Linalg.C14_multATDenseInto",
    "Linalg.C14_multDense",
    "Linalg.C14_multATDense",
    "Linalg.C14_multDense_rejects"
   ],
   "note": ""
  },
  {
   "property": "C15",
   "status": "proved",
   "theorems": [
    "Linalg.C15_scale",
    "Linalg.C15_scale_coef",
    "Linalg.C15_divScale",
    "Linalg.C15_scale_inverse",
    "Linalg.C15_fill",
    "Linalg.C15_sum",
    "Linalg.C15_maxNorm"
   ],
   "note": ""
  },
  {
   "property": "C16",
   "status": "proved",
   "theorems": [
    "Linalg.C16_step",
    "Linalg.C16_history"
   ],
   "note": ""
  },
  {
   "property": "C17",
   "status": "proved",
   "theorems": [
    "Linalg.C17_toSparse",
    "Linalg.C17_history",
    "Linalg.C17_order",
    "Linalg.C17_stored"
   ],
   "note": ""
  },
  {
   "property": "C18",
   "status": "proved",
   "theorems": [
    "Linalg.C18_toDense",
    "Linalg.C18_mult_value",
    "Linalg.C18_mult",
    "Linalg.C18_toDense_new"
   ],
   "note": "exact arithmetic; input and output vectors do not alias"
  },
  {
   "property": "C19",
   "status": "proved",
   "theorems": [
    "Linalg.C19_sized",
    "Linalg.C19_add",
    "Linalg.C19_unsized",
    "Linalg.C19_unsized_empty"
   ],
   "note": ""
  },
  {
   "property": "C20",
   "status": "proved",
   "theorems": [
    "Linalg.C20_addSym",
    "Linalg.C20_addSym_history",
    "Linalg.C20_addBlock",
    "Linalg.C20_addVector",
    "Linalg.C20_addZip"
   ],
   "note": ""
  },
  {
   "property": "C21",
   "status": "partial",
   "theorems": [
    "Linalg.C21_multAT_partial",
    "Linalg.C21_rectangular_false",
    "Linalg.C21_accepted_sizes_false",
    "Linalg.C21_lil_multAT_partial",
    "Linalg.C21_lil_rectangular_false"
   ],
   "note": "false of the code for rectangular matrices (size assertions of the untransposed product); negation proved for all rectangular matrices, claim proved for square ones, for both CooMatrix and LilMatrix"
  },
  {
   "property": "C22",
   "status": "proved",
   "theorems": [
    "Linalg.C22_permute",
    "Linalg.C22_rejects"
   ],
   "note": ""
  },
  {
   "property": "C23",
   "status": "partial",
   "theorems": [
    "Linalg.C23_coo_partial",
    "Linalg.C23_coo_default",
    "Linalg.C23_coo_false",
    "Linalg.C23_lil_partial",
    "Linalg.C23_lil_default",
    "Linalg.C23_lil_false"
   ],
   "note": "false of the code (strict comparison keeps |v| = tol, so nothing is removed by default); negation and exact effect proved"
  },
  {
   "property": "C24",
   "status": "proved",
   "theorems": [
    "Linalg.C24_addSym",
    "Linalg.C24_addBlock",
    "Linalg.C24_addBlock_rejects",
    "Linalg.C24_toDense_new",
    "Linalg.C24_history",
    "Linalg.C24_toSparse",
    "Linalg.C24_toDense",
    "Linalg.C24_mult"
   ],
   "note": ""
  },
  {
   "property": "C25",
   "status": "partial",
   "theorems": [
    "Linalg.C25_rows_false",
    "Linalg.C25_history",
    "Linalg.C25_toSparse_false",
    "Linalg.C25_toDense_partial"
   ],
   "note": "false of the code; proved that every unsized LilMatrix reports one row too many and converts to a malformed SparseMatrix; ToDense proved right up to the extra zero row"
  },
  {
   "property": "C26",
   "status": "partial",
   "theorems": [
    "Linalg.C26_setSize_false",
    "Linalg.C26_add_partial",
    "Linalg.C26_wf_partial"
   ],
   "note": "false of the code (SetSize does not resize the rows); negation, exact safety condition and the case where the storage matches proved"
  },
  {
   "property": "C27",
   "status": "proved",
   "theorems": [
    "Linalg.C27_write",
    "Linalg.C27_getBlock",
    "Linalg.C27_blocks_apart",
    "Linalg.C27_getColView"
   ],
   "note": ""
  },
  {
   "property": "C28",
   "status": "proved",
   "theorems": [
    "Linalg.C28_scaled",
    "Linalg.C28_entrywise",
    "Linalg.C28_divAssign",
    "Linalg.C28_scalar",
    "Linalg.C28_divScalar",
    "Linalg.C28_combine",
    "Linalg.C28_assign",
    "Linalg.C28_rejects",
    "Linalg.C28_overlap_false"
   ],
   "note": "operands are the same view or do not overlap; views overlapping at a shift break the claim (witness proved)"
  },
  {
   "property": "C29",
   "status": "proved",
   "theorems": [
    "Linalg.C29_iff",
    "Linalg.C29_refl_symm",
    "Linalg.C29_not_transitive",
    "Linalg.C29_dense_iff"
   ],
   "note": "tolerance is a parameter; the code uses 1e-12"
  },
  {
   "property": "C30",
   "status": "proved",
   "theorems": [
    "Linalg.C30_sum_inner",
    "Linalg.C30_max_min",
    "Linalg.C30_absMax_absMin",
    "Linalg.C30_mean"
   ],
   "note": ""
  },
  {
   "property": "C31",
   "status": "proved",
   "theorems": [
    "Linalg.C31_subAvg",
    "Linalg.C31_normalize",
    "Linalg.C31_rejects"
   ],
   "note": "exact arithmetic in a field of characteristic 0; square root exact on the sum of squares"
  },
  {
   "property": "C32",
   "status": "proved",
   "theorems": [
    "Linalg.C32_setSize",
    "Linalg.C32_getSubVector",
    "Linalg.C32_getSubVector_rejects"
   ],
   "note": ""
  },
  {
   "property": "C33",
   "status": "proved",
   "theorems": [
    "Linalg.C33_get",
    "Linalg.C33_put",
    "Linalg.C33_rejects",
    "Linalg.C33_address_injective"
   ],
   "note": ""
  },
  {
   "property": "C34",
   "status": "proved",
   "theorems": [
    "Linalg.C34_getSubMatrixInto",
    "Linalg.C34_getSubMatrix",
    "Linalg.C34_getSubMatrixIdxInto",
    "Linalg.C34_setSubMatrix",
    "Linalg.C34_setSubMatrixTranspose",
    "Linalg.C34_get_after_set",
    "Linalg.C34_set_after_get",
    "Linalg.C34_addSubMatrix",
    "Linalg.C34_getCol_getRow",
    "Linalg.C34_setCol_setRow",
    "Linalg.C34_getSubMatrixIdx"
   ],
   "note": ""
  },
  {
   "property": "C35",
   "status": "proved",
   "theorems": [
    "Linalg.C35_transpose",
    "Linalg.C35_transpose_twice"
   ],
   "note": ""
  },
  {
   "property": "C36",
   "status": "proved",
   "theorems": [
    "Linalg.C36_mult",
    "Linalg.C36_multAT",
    "Linalg.C36_rejects",
    "Linalg.C36_multVec"
   ],
   "note": ""
  },
  {
   "property": "C37",
   "status": "proved",
   "theorems": [
    "Linalg.C37_mult",
    "Linalg.C37_mult_new",
    "Linalg.C37_rejects",
    "Linalg.C37_empty_operand"
   ],
   "note": "BLAS gemm/gemv are reference implementations in the model; see DESIGN.md"
  },
  {
   "property": "C38",
   "status": "proved",
   "theorems": [
    "Linalg.C38_hstackInto",
    "Linalg.C38_hstack",
    "Linalg.C38_rejects",
    "Linalg.C38_zero_rows"
   ],
   "note": ""
  },
  {
   "property": "C39",
   "status": "proved",
   "theorems": [
    "Linalg.C39_combine",
    "Linalg.C39_mult",
    "Linalg.C39_mult_blocks",
    "Linalg.C39_new",
    "Linalg.C39_setBlock",
    "Linalg.C39_setBlock_rejects"
   ],
   "note": "exact arithmetic; offsets and block sizes as hypotheses (the constructor and SetBlock establish them); output does not alias the input"
  },
  {
   "property": "C40",
   "status": "partial",
   "theorems": [
    "Linalg.C40_transpose_moves",
    "Linalg.C40_transpose_rejects",
    "Linalg.C40_transpose_false",
    "Linalg.C40_transpose_partial"
   ],
   "note": "The code does not satisfy the stated property: Transpose copies the blocks to the mirrored place without transposing them (C40_transpose_false is a concrete witness) and asserts on blocks whose size does not fit. Proved: exact behaviour (C40_transpose_moves, C40_transpose_rejects) and, as C40_transpose_partial, that the result is the transpose when every block is symmetric."
  },
  {
   "property": "C41",
   "status": "proved",
   "theorems": [
    "Linalg.C41_mult",
    "Linalg.C41_multAT",
    "Linalg.C41_new",
    "Linalg.C41_setBlock",
    "Linalg.C41_setBlock_rejects",
    "Linalg.C41_repeat",
    "Linalg.C41_sparse_block"
   ],
   "note": "set operators are assumed to compute a function of their input whatever the output held; C41_sparse_block discharges this for well-formed sparse matrices"
  },
  {
   "property": "C42",
   "status": "proved",
   "theorems": [
    "Linalg.C42_residual",
    "Linalg.C42_step_residual",
    "Linalg.C42_early_stop",
    "Linalg.C42_initial",
    "Linalg.C42_rejects",
    "Linalg.C42_sparse_op"
   ],
   "note": "Exact arithmetic over an ordered field; the operator is any n x n matrix (C42_sparse_op: every well-formed square sparse matrix is one). The limit in C42_early_stop is max(2, max_iter), the value the loop really counts to."
  },
  {
   "property": "C43",
   "status": "partial",
   "theorems": [
    "Linalg.C43_pcg_partial",
    "Linalg.C43_minres_partial",
    "Linalg.C43_pminres_partial",
    "Linalg.C43_pcg_false",
    "Linalg.C43_minres_false"
   ],
   "note": "The claim as stated is false: C43_pcg_false, C43_minres_false. Proved: PCG reports and applies at most max(2, max_iter), MINRES at most max_iter+1, with the exact relation of both counts."
  },
  {
   "property": "C44",
   "status": "proved",
   "theorems": [
    "Linalg.C44_returns",
    "Linalg.C44_orthogonal",
    "Linalg.C44_exact",
    "Linalg.C44_terminates",
    "Linalg.C44_limit_false"
   ],
   "note": "Exact arithmetic. C44_orthogonal for all pairs of states the loop passes through, C44_exact: exact solution in at most n passes, C44_terminates: Mult returns within n steps for a positive tolerance. C44_limit_false: max_iter = n is one too few."
  },
  {
   "property": "C45",
   "status": "partial",
   "theorems": [
    "Linalg.C45_step_partial",
    "Linalg.C45_mult_partial",
    "Linalg.C45_false"
   ],
   "note": "False as stated (C45_false): the check compares with -1e12. Proved: Mult throws exactly if the loop comes to a direction of curvature <= -1e12."
  },
  {
   "property": "C46",
   "status": "partial",
   "theorems": [
    "Linalg.C46_minres_false",
    "Linalg.C46_pminres_false",
    "Linalg.C46_minres_partial"
   ],
   "note": "False for every operator with max_iter >= 1: C46_minres_false, C46_pminres_false. Holds only for max_iter = 0."
  },
  {
   "property": "C47",
   "status": "proved",
   "theorems": [
    "Linalg.Example.C47_factor",
    "Linalg.Example.C47_succeeds",
    "Linalg.Example.C47_unique",
    "Linalg.Example.C47_forward",
    "Linalg.Example.C47_back",
    "Linalg.Example.C47_solve"
   ],
   "note": ""
  },
  {
   "property": "C48",
   "status": "partial",
   "theorems": [
    "Linalg.Io.C48_roundTrip_partial",
    "Linalg.Io.C48_empty",
    "Linalg.Io.C48_truncated",
    "Linalg.Io.C48_truncation_undetected"
   ],
   "note": "Round trip for every non-empty vector (C48_roundTrip_partial). The empty vector takes &v[0] (C48_empty). Truncation is never detected once the length is read (C48_truncated gives what is returned; C48_truncation_undetected is a counterexample)."
  },
  {
   "property": "C49",
   "status": "partial",
   "theorems": [
    "Linalg.Io.C49_roundTrip_partial",
    "Linalg.Io.C49_empty"
   ],
   "note": "Round trip for every matrix with at least one entry and sizes below 2^31. A matrix without entries takes &v[0] of an empty vector (C49_empty)."
  },
  {
   "property": "C50",
   "status": "proved",
   "theorems": [
    "Linalg.Io.C50_text",
    "Linalg.Io.C50_int",
    "Linalg.Io.C50_malformed",
    "Linalg.Io.C50_open"
   ],
   "note": "Values: all integers, or any type with a print/parse round trip per value (Fmt.RoundTrips). The default stream precision of 6 digits does not give one for every double."
  },
  {
   "property": "C51",
   "status": "proved",
   "theorems": [
    "Linalg.Io.C51_csr",
    "Linalg.Io.C51_int"
   ],
   "note": "Values as in C50."
  },
  {
   "property": "C52",
   "status": "proved",
   "theorems": [
    "Linalg.Io.C52_read",
    "Linalg.Io.C52_roundTrip",
    "Linalg.Io.C52_int",
    "Linalg.Io.C52_rejects"
   ],
   "note": "Values as in C50. C52_read covers any file in the format; C52_rejects positions outside the size."
  },
  {
   "property": "C53",
   "status": "proved",
   "theorems": [
    "Linalg.Io.C53_coo",
    "Linalg.Io.C53_coo_symmetric",
    "Linalg.Io.C53_adj",
    "Linalg.Io.C53_shape_lost"
   ],
   "note": "Same coefficients; shape is the least that holds the entries (Fits), which can differ from A's: C53_shape_lost."
  },
  {
   "property": "C54",
   "status": "proved",
   "theorems": [
    "Linalg.Io.C54_table",
    "Linalg.Io.C54_empty"
   ],
   "note": "For tables with at least one entry; without one the reader is undefined (C54_empty)."
  },
  {
   "property": "C55",
   "status": "proved",
   "theorems": [
    "Linalg.Io.C55_laplacian"
   ],
   "note": "Every list of lines with non-negative i when i < j."
  },
  {
   "property": "C56",
   "status": "proved",
   "theorems": [
    "Linalg.Io.C56_lists",
    "Linalg.Io.C56_mtx"
   ],
   "note": "Every file, whatever its contents. A Matrix Market file may declare a non-square size; then only the coefficients are symmetric."
  },
  {
   "property": "C57",
   "status": "proved",
   "theorems": [
    "Linalg.Util.C57_accepts",
    "Linalg.Util.C57_values",
    "Linalg.Util.C57_isGood",
    "Linalg.Util.C57_parse",
    "Linalg.Util.C57_single_dash"
   ],
   "note": "Every argument list and every sequence of Parse calls of every type. What is accepted is characterised exactly. The documented single-dash form is refuted: a value-less -flag swallows the next -flag."
  },
  {
   "property": "C58",
   "status": "proved",
   "theorems": [
    "Linalg.Util.C58_total",
    "Linalg.Util.C58_nonneg"
   ],
   "note": "Every sequence of clicks and every ordered clock type."
  },
  {
   "property": "C59",
   "status": "proved",
   "theorems": [
    "Linalg.Eigen.C59_count",
    "Linalg.Eigen.C59_too_many_false"
   ],
   "note": "Any order relation, any LAPACK whose outputs have the documented sizes, any reachable solver state. C59_too_many_false is a run with max_evect larger than the dimension that reads past the end."
  },
  {
   "property": "C60",
   "status": "proved",
   "theorems": [
    "Linalg.Eigen.C60_workspace",
    "Linalg.Eigen.C60_rectangular_false"
   ],
   "note": "Array lengths are checked before every LAPACK call in the model; every history of calls. C60_rectangular_false is a run with a rectangular matrix that goes out of bounds."
  },
  {
   "property": "C61",
   "status": "proved",
   "theorems": [
    "Linalg.Metis.C61_removeEmpty",
    "Linalg.Metis.C61_rejects"
   ],
   "note": "Every label vector."
  },
  {
   "property": "C62",
   "status": "proved",
   "theorems": [
    "Linalg.Metis.C62_adjacency",
    "Linalg.Metis.C62_throws",
    "Linalg.Metis.C62_rejects"
   ],
   "note": "The original claim for every matrix is false: reserve is called with a negative number when nnz <= rows - 2 (C62_throws). Proved exactly on both sides."
  },
  {
   "property": "C63",
   "status": "proved",
   "theorems": [
    "Linalg.Par.C63_offsets",
    "Linalg.Par.C63_mismatch",
    "Linalg.Par.C63_ranges"
   ],
   "note": "Every number of processes and every list of sizes; MPI_Scan and MPI_Bcast are modelled by their specification."
  },
  {
   "property": "C64",
   "status": "proved",
   "theorems": [
    "Linalg.C64_sortColumnMap",
    "Linalg.C64_rejects"
   ],
   "note": "Every outcome of std::sort allowed by its contract."
  },
  {
   "property": "C65",
   "status": "partial",
   "theorems": [
    "Linalg.C65_exact",
    "Linalg.C65_add_partial",
    "Linalg.C65_add",
    "Linalg.C65_local",
    "Linalg.C65_sub_partial",
    "Linalg.C65_false",
    "Linalg.C65_sub_false",
    "Linalg.C65_subMarker"
   ],
   "note": "False for general scalars (C65_false, C65_sub_false): the first stored entry of every off-process column is added unscaled. C65_exact gives the exact result for all scalars; C65_add proves ParAdd(A, B); equal column starts are assumed, the code does not assert them. hypre's reordering of the diagonal block is a contract."
  },
  {
   "property": "C66",
   "status": "partial",
   "theorems": [
    "Linalg.C66_numbering",
    "Linalg.C66_split",
    "Linalg.C66_pattern",
    "Linalg.C66_symmetric_partial",
    "Linalg.C66_false",
    "Linalg.C66_rejects"
   ],
   "note": "False for non-symmetric matrices (C66_false). C66_split gives the exact result for every square matrix and every assignment of vertices to processes in range."
  },
  {
   "property": "C67",
   "status": "proved",
   "theorems": [
    "Linalg.Example.C67_factor",
    "Linalg.Example.C67_succeeds",
    "Linalg.Example.C67_solve"
   ],
   "note": ""
  },
  {
   "property": "C68",
   "status": "proved",
   "theorems": [
    "Linalg.Eigen.C68_eigenpairs",
    "Linalg.C68_sparse"
   ],
   "note": "LAPACK is a contract (Spec/Eigen.lean); an example shows it can be met over the reals by the spectral theorem. Exact arithmetic."
  },
  {
   "property": "C69",
   "status": "proved",
   "theorems": [
    "Linalg.C69_add_sub",
    "Linalg.C69_scalar"
   ],
   "note": "Exact entry-by-entry result and the rejections."
  },
  {
   "property": "C70",
   "status": "proved",
   "theorems": [
    "Linalg.C70_scale",
    "Linalg.C70_inverse",
    "Linalg.C70_rejects"
   ],
   "note": "Exact result, the round trip and the rejections."
  },
  {
   "property": "C71",
   "status": "proved",
   "theorems": [
    "Linalg.C71_ranges",
    "Linalg.C71_rowIdx",
    "Linalg.C71_setBlocks",
    "Linalg.C71_getDiag",
    "Linalg.C71_max_min",
    "Linalg.C71_sum"
   ],
   "note": "Every range and list."
  },
  {
   "property": "C72",
   "status": "proved",
   "theorems": [
    "Linalg.C72_row",
    "Linalg.C72_rejects",
    "Linalg.C72_nnz"
   ],
   "note": "Every row of every well-formed matrix."
  },
  {
   "property": "C73",
   "status": "proved",
   "theorems": [
    "Linalg.Metis.C73_partition",
    "Linalg.Metis.C73_rejects"
   ],
   "note": "METIS is a contract: every vertex gets a label in [0, num_parts)."
  },
  {
   "property": "C74",
   "status": "proved",
   "theorems": [
    "Linalg.C74_diag",
    "Linalg.C74_all",
    "Linalg.C74_accepts",
    "Linalg.C74_result"
   ],
   "note": "hypre's reordering of the diagonal block is a contract (only the order within rows changes)."
  },
  {
   "property": "C75",
   "status": "proved",
   "theorems": [
    "Linalg.C75_local",
    "Linalg.C75_rejects"
   ],
   "note": "hypre_BinarySearch, std::sort and hypre's reordering are contracts; one OpenMP thread."
  },
  {
   "property": "C76",
   "status": "proved",
   "theorems": [
    "Linalg.C76_parMult"
   ],
   "note": "hypre_ParCSRMatrixExtractBExt is a contract (the rows of B asked for by the column map of A); one OpenMP thread."
  },
  {
   "property": "C77",
   "status": "proved",
   "theorems": [
    "Linalg.C77_parTranspose",
    "Linalg.C77_packages_exist"
   ],
   "note": "The communication package (hypre_MatvecCommPkgCreate), the transposed exchange, hypre_BinarySearch, qsort0 and hypre's reordering are contracts; one OpenMP thread. Every distributed matrix has a fitting package (Par.exists_pkgs)."
  },
  {
   "property": "C78",
   "status": "proved",
   "theorems": [
    "Linalg.C78_congruence",
    "Linalg.C78_rap"
   ],
   "note": "As for C76 and C77; the extraction of rows is a contract that Par.fullExtract meets."
  },
  {
   "property": "C79",
   "status": "proved",
   "theorems": [
    "Linalg.C79_invert",
    "Linalg.C79_rejects",
    "Linalg.C79_copy"
   ],
   "note": "LAPACK is a contract (LapackDense.Exact), met by an instance over the reals; exact arithmetic."
  },
  {
   "property": "C80",
   "status": "proved",
   "theorems": [
    "Linalg.C80_svd",
    "Linalg.C80_values",
    "Linalg.C80_copy"
   ],
   "note": "LAPACK is a contract (LapackDense.Exact), met by an instance over the reals; exact arithmetic."
  },
  {
   "property": "C81",
   "status": "partial",
   "theorems": [
    "Linalg.C81_qr_partial",
    "Linalg.C81_wide_false",
    "Linalg.C81_copy"
   ],
   "note": "LAPACK is a contract (LapackDense.Exact), met by an instance over the reals; exact arithmetic. Missing: more columns than rows, where the code reads and writes past the pivot array (C81_wide_false)."
  },
  {
   "property": "C82",
   "status": "proved",
   "theorems": [
    "Linalg.C82_minimal",
    "Linalg.C82_terminates",
    "Linalg.C82_iterations",
    "Linalg.C82_spectral",
    "Linalg.C82_rate"
   ],
   "note": "Exact arithmetic over any ordered field; std::sqrt by contract (IsSqrt), met by Real.sqrt."
  },
  {
   "property": "C83",
   "status": "proved",
   "theorems": [
    "Linalg.C83_minimal",
    "Linalg.C83_terminates",
    "Linalg.C83_iterations",
    "Linalg.C83_spectral",
    "Linalg.C83_rate"
   ],
   "note": "Exact arithmetic over any ordered field; std::sqrt by contract (IsSqrt), met by Real.sqrt."
  },
  {
   "property": "C84",
   "status": "proved",
   "theorems": [
    "Linalg.C84_pcg_new",
    "Linalg.C84_minres_new",
    "Linalg.C84_pminres_new",
    "Linalg.C84_setOperator",
    "Linalg.C84_cg",
    "Linalg.C84_pcg",
    "Linalg.C84_random",
    "Linalg.C84_minres",
    "Linalg.C84_pminres",
    "Linalg.C84_minres_random"
   ],
   "note": "As C42-C46 and C82, C83; Randomize is an arbitrary vector."
  },
  {
   "property": "C85",
   "status": "partial",
   "theorems": [
    "Linalg.C85_ofPart_partial",
    "Linalg.C85_ofVect",
    "Linalg.C85_ofVal_partial",
    "Linalg.C85_false",
    "Linalg.C85_empty_inside",
    "Linalg.C85_short"
   ],
   "note": "Fails for a process whose range is empty at the end of the vector (strict < in an assertion) and for a partition of two elements (read out of bounds); proved for the others."
  },
  {
   "property": "C86",
   "status": "proved",
   "theorems": [
    "Linalg.C86_inner",
    "Linalg.C86_inner_rejects",
    "Linalg.C86_l2Norm",
    "Linalg.C86_globalSum",
    "Linalg.C86_subAvg",
    "Linalg.C86_updates",
    "Linalg.C86_divide",
    "Linalg.C86_updates_reject",
    "Linalg.C86_fill"
   ],
   "note": "MPI_Allreduce by contract (sum over the processes); std::sqrt is a parameter. ParMult and ParL2Norm of a ParVector take the sum twice: see C134."
  },
  {
   "property": "C87",
   "status": "partial",
   "theorems": [
    "Linalg.C87_mult",
    "Linalg.C87_multAT",
    "Linalg.C87_rejects",
    "Linalg.C87_adjoint",
    "Linalg.C87_transpose",
    "Linalg.C87_product",
    "Linalg.C87_vec_partial",
    "Linalg.C87_vecAT_partial",
    "Linalg.C87_vec_false"
   ],
   "note": "hypre_ParCSRMatrixMatvec(T) by contract (Par.IsMatvec, shown satisfiable). The ParVector forms inherit C85: they fail when a process owns no trailing rows."
  },
  {
   "property": "C88",
   "status": "proved",
   "theorems": [
    "Linalg.C88_scale",
    "Linalg.C88_neg",
    "Linalg.C88_scaleRows",
    "Linalg.C88_inverseScaleRows",
    "Linalg.C88_scale_by_matrix",
    "Linalg.C88_eliminateRow",
    "Linalg.C88_addDiag",
    "Linalg.C88_addDiagVal",
    "Linalg.C88_addDiag_rejects",
    "Linalg.C88_fill",
    "Linalg.C88_maxNorm"
   ],
   "note": "AddDiag changes only stored diagonal positions, as C10."
  },
  {
   "property": "C89",
   "status": "partial",
   "theorems": [
    "Linalg.C89_norms_partial",
    "Linalg.C89_other_options",
    "Linalg.C89_false",
    "Linalg.C89_wrong_sign",
    "Linalg.C89_bounds"
   ],
   "note": "Missing: rows that store no own column, where the code reads the next row's first value or past the end (C89_false, C89_wrong_sign). The diagonal is assumed to be stored first, as hypre does."
  },
  {
   "property": "C90",
   "status": "proved",
   "theorems": [
    "Linalg.C90_values",
    "Linalg.C90_apart"
   ],
   "note": "A heap of blocks; std::vector's growth is an arbitrary policy. Freed blocks are never reused, so a dangling access is always an error in the model."
  },
  {
   "property": "C91",
   "status": "proved",
   "theorems": [
    "Linalg.C91_view",
    "Linalg.C91_write",
    "Linalg.C91_moved",
    "Linalg.C91_dangling",
    "Linalg.C91_nested",
    "Linalg.C91_assign"
   ],
   "note": "C91_dangling and C91_assign are concrete runs: a view dangles after growth, and `v = A.GetColView(0)` into an empty vector fails an assertion because overload resolution picks VectorView::operator=."
  },
  {
   "property": "C92",
   "status": "proved",
   "theorems": [
    "Linalg.C92_default",
    "Linalg.C92_solves",
    "Linalg.C92_rejects",
    "Linalg.C92_sizes",
    "Linalg.C92_empty"
   ],
   "note": "UMFPACK is a contract (Umfpack.Exact), met by an instance (SparseSolver.ideal_exact). A matrix that stores nothing is accepted and solving returns zeros (C92_empty)."
  },
  {
   "property": "C93",
   "status": "partial",
   "theorems": [
    "Linalg.C93_values_partial",
    "Linalg.C93_apart_partial",
    "Linalg.C93_moved",
    "Linalg.C93_false"
   ],
   "note": "Missing: moves, and copies of solvers whose matrix stores nothing: both leave numeric_ unset, and using or destroying such an object is undefined (C93_moved, C93_false)."
  },
  {
   "property": "C94",
   "status": "proved",
   "theorems": [
    "Linalg.C94_result",
    "Linalg.C94_start",
    "Linalg.C94_bounds",
    "Linalg.C94_posdef",
    "Linalg.C94_eigenvector",
    "Linalg.C94_monotone",
    "Linalg.C94_converges"
   ],
   "note": "The random start is an argument; exact arithmetic with an exact square root. If a power of the operator applied to the start is zero, Vector's division asserts (second case of C94_result)."
  },
  {
   "property": "C95",
   "status": "proved",
   "theorems": [
    "Linalg.C95_laplacian",
    "Linalg.C95_missing",
    "Linalg.C95_rowSums",
    "Linalg.C95_form",
    "Linalg.C95_semidefinite",
    "Linalg.C95_power"
   ],
   "note": "Matrices that store an entry twice are outside the statement."
  },
  {
   "property": "C96",
   "status": "proved",
   "theorems": [
    "Linalg.C96_decomposition",
    "Linalg.C96_singular",
    "Linalg.C96_symmetric",
    "Linalg.C96_converges",
    "Linalg.C96_largest",
    "Linalg.C96_stuck",
    "Linalg.C96_symmetrize",
    "Linalg.C96_symmetrize_wide"
   ],
   "note": "Exact arithmetic with an exact square root. Convergence for definite matrices; C96_stuck shows it fails for the exchange matrix."
  },
  {
   "property": "C97",
   "status": "partial",
   "theorems": [
    "Linalg.C97_values_partial",
    "Linalg.C97_copy",
    "Linalg.C97_copy_empty",
    "Linalg.C97_resize"
   ],
   "note": "Holds for all programs, with the exception that copying an empty vector (default-constructed or moved from) is undefined (C97_copy_empty). SetSize that moves the elements leaves hypre with freed storage (C97_resize), so it is not among the operations."
  },
  {
   "property": "C98",
   "status": "partial",
   "theorems": [
    "Linalg.C98_values_partial",
    "Linalg.C98_copy",
    "Linalg.C98_copy_negative"
   ],
   "note": "Holds for all programs. The exception: the copy constructor makes the vectors used by Mult only if the communicator, as a number, is positive, so with a negative handle (derived communicators in MPICH) a copy cannot multiply (C98_copy, C98_copy_negative)."
  },
  {
   "property": "C99",
   "status": "partial",
   "theorems": [
    "Linalg.C99_values_partial",
    "Linalg.C99_moves",
    "Linalg.C99_copies",
    "Linalg.C99_copy_boomer",
    "Linalg.C99_copy_sails",
    "Linalg.C99_copy_cg",
    "Linalg.C99_move_base"
   ],
   "note": "C99_values_partial says for each class what every program does. Without copies the four derived hypre solvers behave as they should (C99_moves), and so do ParDiagScale in all programs and ParSmoother in those without moves (C99_copies). The code violates the rest: copies of BoomerAMG are never set up, destroying a copy of ParaSails is undefined, copies of ParCG lose their settings, and a moved-from ParSolver or ParSmoother cannot be destroyed."
  },
  {
   "property": "C100",
   "status": "partial",
   "theorems": [
    "Linalg.C100_order",
    "Linalg.C100_again",
    "Linalg.C100_dangling",
    "Linalg.C100_moved",
    "Linalg.C100_diag_partial",
    "Linalg.C100_copy"
   ],
   "note": "Holds for EnableDiagScaling (C100_diag_partial) and under moves of M (C100_moved). ParCG(A, M) passes the setup function where hypre takes the solve function, so M is never applied (C100_order, C100_again); M must outlive the ParCG (C100_dangling); a copy has no preconditioner (C100_copy)."
  },
  {
   "property": "C101",
   "status": "partial",
   "theorems": [
    "Linalg.C101_blocks_other",
    "Linalg.C101_sparse",
    "Linalg.C101_dense",
    "Linalg.C101_coo_partial",
    "Linalg.C101_lil_partial",
    "Linalg.C101_block",
    "Linalg.C101_blockvec",
    "Linalg.C101_blockop",
    "Linalg.C101_sparse_left",
    "Linalg.C101_sparse_left_arrays",
    "Linalg.C101_block_left",
    "Linalg.C101_coo_left",
    "Linalg.C101_move_strict",
    "Linalg.C101_lil_left",
    "Linalg.C101_blockop_mult",
    "Linalg.C101_blocks",
    "Linalg.C101_blocks_new",
    "Linalg.C101_blocks_stale",
    "Linalg.C101_blockop_guess",
    "Linalg.C101_sparse_fresh"
   ],
   "note": "Proved for SparseMatrix, DenseMatrix, BlockMatrix and BlockVector, and for BlockOperator programs without assignment (it has none). Coo and Lil: C101_coo_partial and C101_lil_partial assume that exchanging an indeterminate bool is harmless; read strictly the move constructors are undefined (C101_move_strict). A moved-from BlockMatrix cannot be transposed (C101_block_left), block offsets go stale when a Vector is assigned (C101_blocks_stale), and copies of a BlockOperator with a solver as block use another initial guess (C101_blockop_guess)."
  },
  {
   "property": "C102",
   "status": "proved",
   "theorems": [
    "Linalg.C102_pcg_values",
    "Linalg.C102_minres_values",
    "Linalg.C102_pminres_values",
    "Linalg.C102_pcg",
    "Linalg.C102_minres",
    "Linalg.C102_pminres",
    "Linalg.C102_set_operator",
    "Linalg.C102_left",
    "Linalg.C102_precond_freed",
    "Linalg.C102_resized"
   ],
   "note": "C102_*_values describe every program; C102_pcg, C102_minres, C102_pminres say what Mult of any solver in any program does. Operators must overwrite their output. C102_resized shows that MINRES really needs operators to keep their size; C102_set_operator and C102_left show that a moved-from solver can only be revived by assignment."
  },
  {
   "property": "C103",
   "status": "proved",
   "theorems": [
    "Linalg.C103_mult",
    "Linalg.C103_multAT",
    "Linalg.C103_transpose",
    "Linalg.C103_multDense",
    "Linalg.C103_product",
    "Linalg.C103_dense",
    "Linalg.C103_coo",
    "Linalg.C103_lil",
    "Linalg.C103_vector"
   ],
   "note": "The functions are parametric in the scalar type and its operations; no algebraic law is used."
  },
  {
   "property": "C104",
   "status": "proved",
   "theorems": [
    "Linalg.C104_mult_backward",
    "Linalg.C104_mult",
    "Linalg.C104_multAT",
    "Linalg.C104_product",
    "Linalg.C104_other",
    "Linalg.C104_vector",
    "Linalg.C104_norm",
    "Linalg.C104_cancels"
   ],
   "note": "Rounding is any function with the standard bounds (Spec/Round.lean); rounding to nearest with p binary digits and unbounded exponent is one (Rounding.nearest). C104_cancels shows that the sums are not accurate relative to themselves."
  },
  {
   "property": "C105",
   "status": "proved",
   "theorems": [
    "Linalg.Example.C105_factor",
    "Linalg.Example.C105_outcome",
    "Linalg.Example.C105_forward",
    "Linalg.Example.C105_back",
    "Linalg.Example.C105_solve",
    "Linalg.Example.C105_residual",
    "Linalg.Example.C105_not_upper"
   ],
   "note": "C105_not_upper: in double precision the computed U is not upper triangular (the solves do not read what is under the diagonal)."
  },
  {
   "property": "C106",
   "status": "proved",
   "theorems": [
    "Linalg.C106_apart",
    "Linalg.C106_apart_dense",
    "Linalg.C106_apart_coo",
    "Linalg.C106_apart_lil",
    "Linalg.C106_apart_block",
    "Linalg.C106_same_zero",
    "Linalg.C106_same_zero_dense",
    "Linalg.C106_same_zero_coo",
    "Linalg.C106_same_zero_lil",
    "Linalg.C106_same_zero_block",
    "Linalg.C106_same",
    "Linalg.C106_same_dense",
    "Linalg.C106_same_iff",
    "Linalg.C106_same_upper",
    "Linalg.C106_same_dense_iff",
    "Linalg.C106_same_false",
    "Linalg.C106_blockop"
   ],
   "note": "C106_same_false: in place the products are wrong in general; no function of the library calls them so."
  },
  {
   "property": "C107",
   "status": "proved",
   "theorems": [
    "Linalg.C107_sizes",
    "Linalg.C107_forms",
    "Linalg.C107_noAT",
    "Linalg.C107_inner",
    "Linalg.C107_inner_sparse",
    "Linalg.C107_inner_symm",
    "Linalg.C107_sums",
    "Linalg.C107_self",
    "Linalg.C107_plus_minus",
    "Linalg.C107_scalar",
    "Linalg.C107_scalarOver"
   ],
   "note": "C107_self: with one Vector as argument and result the size of the argument is not checked."
  },
  {
   "property": "C108",
   "status": "proved",
   "theorems": [
    "Linalg.C108_dense_new",
    "Linalg.C108_dense_setSize",
    "Linalg.C108_dense_access",
    "Linalg.C108_dense_data",
    "Linalg.C108_toDense",
    "Linalg.C108_unlimited",
    "Linalg.C108_transpose",
    "Linalg.C108_mult",
    "Linalg.C108_outer",
    "Linalg.C108_outer_32",
    "Linalg.C108_coo",
    "Linalg.C108_coo_size",
    "Linalg.C108_coo_rows",
    "Linalg.C108_blocks"
   ],
   "note": "C108_unlimited: with the check left out the functions are those of the other properties. Loop counters and counters plus one are not checked (bounded by the loop)."
  },
  {
   "property": "C109",
   "status": "proved",
   "theorems": [
    "Linalg.C109_mult",
    "Linalg.C109_multAT",
    "Linalg.C109_returning",
    "Linalg.C109_product",
    "Linalg.C109_one",
    "Linalg.C109_int_error",
    "Linalg.C109_int_exact",
    "Linalg.C109_double",
    "Linalg.C109_product_int",
    "Linalg.C109_int_errorAT",
    "Linalg.C109_int_worst",
    "Linalg.C109_forms_false",
    "Linalg.C109_order_false",
    "Linalg.C109_assoc_false",
    "Linalg.C109_transpose",
    "Linalg.C109_coo",
    "Linalg.C109_coo_coef",
    "Linalg.C109_lil",
    "Linalg.C109_coo_lil_false",
    "Linalg.C109_assembly_false",
    "Linalg.C109_fill",
    "Linalg.C109_scale",
    "Linalg.C109_scale_false",
    "Linalg.C109_vector",
    "Linalg.C109_vector_false"
   ],
   "note": "double is the rational numbers here; conversions of doubles outside the range of int (undefined) are not modelled. C109_one: with one type the functions are those of the other models."
  },
  {
   "property": "C110",
   "status": "proved",
   "theorems": [
    "Linalg.C110_sparse",
    "Linalg.C110_coo",
    "Linalg.C110_lil",
    "Linalg.C110_vector",
    "Linalg.C110_stdVector",
    "Linalg.C110_dense",
    "Linalg.C110_printDense",
    "Linalg.C110_block",
    "Linalg.C110_par",
    "Linalg.C110_sparse_determines",
    "Linalg.C110_sparse_injective",
    "Linalg.C110_sparse_size_false",
    "Linalg.C110_coo_determines",
    "Linalg.C110_lil_determines",
    "Linalg.C110_lil_size_false",
    "Linalg.C110_coo_sparse_false",
    "Linalg.C110_vector_determines",
    "Linalg.C110_fixed",
    "Linalg.C110_dense_determines",
    "Linalg.C110_dense_precision_false",
    "Linalg.C110_dense_space_false",
    "Linalg.C110_block_determines",
    "Linalg.C110_field",
    "Linalg.C110_nearest",
    "Linalg.C110_blockDense"
   ],
   "note": "How a number is turned into text is a parameter, but for int (decimal) and double in fixed notation (rounded to nearest, ties to even; no negative zero, infinity or nan). Base, fill character and locale are the defaults; writing does not fail."
  },
  {
   "property": "C111",
   "status": "proved",
   "theorems": [
    "Linalg.Util.C111_parse",
    "Linalg.Util.C111_history",
    "Linalg.Util.C111_errors",
    "Linalg.Util.C111_help",
    "Linalg.Util.C111_options",
    "Linalg.Util.C111_left_false"
   ],
   "note": "C111_parse: Parse is a request in the sense of C111_history. C111_left_false: the state of the stream is changed by ShowOptions."
  },
  {
   "property": "C112",
   "status": "proved",
   "theorems": [
    "Linalg.C112_transpose",
    "Linalg.C112_transpose_iff",
    "Linalg.C112_transpose_shape",
    "Linalg.C112_sub",
    "Linalg.C112_sub_cols",
    "Linalg.C112_sub_fails",
    "Linalg.C112_sub_false",
    "Linalg.C112_subIdx",
    "Linalg.C112_getRow",
    "Linalg.C112_getRow_up",
    "Linalg.C112_getRow_length",
    "Linalg.C112_getRow_false",
    "Linalg.C112_setSub",
    "Linalg.C112_setSub_apart",
    "Linalg.C112_setSub_false",
    "Linalg.C112_setRow",
    "Linalg.C112_update",
    "Linalg.C112_mult",
    "Linalg.C112_mult_square",
    "Linalg.C112_multAT",
    "Linalg.C112_multAT_square",
    "Linalg.C112_multCT",
    "Linalg.C112_scaleRows",
    "Linalg.C112_scaleCols",
    "Linalg.C112_scale_diag",
    "Linalg.C112_scale_false",
    "Linalg.C112_subVector"
   ],
   "note": "C112_sub_false, C112_getRow_false, C112_setSub_false, C112_scale_false and the examples are the cases in which the result is not the one of two separate objects."
  },
  {
   "property": "C113",
   "status": "partial",
   "theorems": [
    "Linalg.Io.C113_written",
    "Linalg.Io.C113_error",
    "Linalg.Io.C113_exact",
    "Linalg.Io.C113_integers",
    "Linalg.Io.C113_seventeen",
    "Linalg.Io.C113_collapse",
    "Linalg.Io.C113_text_false",
    "Linalg.Io.C113_max_false",
    "Linalg.Io.C113_inf_false",
    "Linalg.Io.C113_again_partial",
    "Linalg.Io.C113_again_false",
    "Linalg.Io.C113_settles",
    "Linalg.Io.C113_text",
    "Linalg.Io.C113_csr",
    "Linalg.Io.C113_mtx",
    "Linalg.Io.C113_coo",
    "Linalg.Io.C113_coo_false",
    "Linalg.Io.C113_word",
    "Linalg.Io.C113_same_text",
    "Linalg.Io.C113_print",
    "Linalg.Io.C113_notation"
   ],
   "note": "Partial because the code violates the property: 16 (or 6) digits are too few (C113_text_false, C113_max_false, C113_inf_false, C113_coo_false, C113_collapse), and a second write can change the text (C113_again_false); C113_again_partial excludes neighbours of powers of ten. C113_seventeen is what 17 digits would give."
  },
  {
   "property": "C114",
   "status": "proved",
   "theorems": [
    "Linalg.C114_run",
    "Linalg.C114_matrix",
    "Linalg.C114_long",
    "Linalg.C114_short",
    "Linalg.C114_square",
    "Linalg.C114_matvec",
    "Linalg.C114_random",
    "Linalg.C114_matvec_false"
   ],
   "note": "hypre's iteration is an arbitrary program that asks for products (Ask); Ask.Proper is what hypre promises of it. C114_matvec_false: the product function is wrong for other factors than 1 and 0."
  },
  {
   "property": "C115",
   "status": "proved",
   "theorems": [
    "Linalg.Example.C115_timeLU",
    "Linalg.Rng.C115_randomize",
    "Linalg.Rng.C115_range",
    "Linalg.Rng.C115_limits",
    "Linalg.Rng.C115_reproducible",
    "Linalg.Rng.C115_device",
    "Linalg.Rng.C115_member",
    "Linalg.Rng.C115_matrix",
    "Linalg.Rng.C115_seeds",
    "Linalg.Rng.C115_minstd",
    "Linalg.Example.C115_wide",
    "Linalg.Example.C115_timeQR",
    "Linalg.Example.C115_testLU",
    "Linalg.Example.C115_QR",
    "Linalg.Example.C115_LU",
    "Linalg.Example.C115_LU_any"
   ],
   "note": "The engine and the distributions are a parameter; C115_seeds and C115_minstd are for the formulas of libstdc++ in exact arithmetic. C115_timeQR: time_QR asks for factors that do not exist; with doubles rounding hides it."
  },
  {
   "property": "C116",
   "status": "proved",
   "theorems": [
    "Linalg.C116_matrix",
    "Linalg.C116_eliminate",
    "Linalg.C116_laplacian",
    "Linalg.C116_definite",
    "Linalg.C116_run",
    "Linalg.C116_rejects",
    "Linalg.C116_nnz",
    "Linalg.C116_partition"
   ],
   "note": "Exact arithmetic; UMFPACK and METIS through their contracts (Umfpack.Exact, Metis.Assigns); printing left out."
  },
  {
   "property": "C117",
   "status": "proved",
   "theorems": [
    "Linalg.C117_view",
    "Linalg.C117_setIndex",
    "Linalg.C117_setIndex_coef",
    "Linalg.C117_rejects",
    "Linalg.C117_negative",
    "Linalg.C117_first",
    "Linalg.C117_setData"
   ],
   "note": "The view is an offset into the array indices_; a negative position follows the code, which checks only the upper bound."
  },
  {
   "property": "C118",
   "status": "proved",
   "theorems": [
    "Linalg.C118_setSize",
    "Linalg.C118_sameRows",
    "Linalg.C118_moved",
    "Linalg.C118_square",
    "Linalg.C118_copyData",
    "Linalg.C118_getCol",
    "Linalg.C118_empty",
    "Linalg.C118_getSubVector"
   ],
   "note": "GetCol of a matrix that is not constant is modelled for a target that is a vector of its own."
  },
  {
   "property": "C119",
   "status": "proved",
   "theorems": [
    "Linalg.C119_matrix",
    "Linalg.C119_spectrum",
    "Linalg.C119_lowest",
    "Linalg.C119_eigenvalues",
    "Linalg.C119_run",
    "Linalg.C119_procs"
   ],
   "note": "Exact arithmetic. hypre and the preconditioners are contracts (Par.FindsLowest); reading the files is left out."
  },
  {
   "property": "C120",
   "status": "proved",
   "theorems": [
    "Linalg.C120_pattern",
    "Linalg.C120_laplacian",
    "Linalg.C120_isolated",
    "Linalg.C120_run",
    "Linalg.C120_parseDense"
   ],
   "note": "Exact arithmetic; the start vector is a parameter."
  },
  {
   "property": "C121",
   "status": "proved",
   "theorems": [
    "Linalg.C121_copy",
    "Linalg.C121_null",
    "Linalg.C121_nnz",
    "Linalg.C121_verify",
    "Linalg.C121_assert_false"
   ],
   "note": "hypre's arrays are lists; hypre_ParCSRMatrixSetNumNonzeros is a contract. The documented behaviour of linalgcpp_assert fails (C121_assert_false)."
  },
  {
   "property": "C122",
   "status": "partial",
   "theorems": [
    "Linalg.C122_boomer",
    "Linalg.C122_cg",
    "Linalg.C122_iterations_false",
    "Linalg.C122_sails_partial",
    "Linalg.C122_sails_iff",
    "Linalg.C122_sails_false",
    "Linalg.C122_setters_false"
   ],
   "note": "Partial because the code violates it: load_bal is passed through an int (C122_sails_false), large iteration counts wrap (C122_iterations_false), setters after setup do nothing (C122_setters_false)."
  },
  {
   "property": "C123",
   "status": "partial",
   "theorems": [
    "Linalg.C123_agree",
    "Linalg.C123_random",
    "Linalg.C123_submatrix",
    "Linalg.C123_products",
    "Linalg.C123_operator",
    "Linalg.C123_lil_large",
    "Linalg.C123_lil",
    "Linalg.C123_coo",
    "Linalg.C123_sparse_empty",
    "Linalg.C123_sparse_pairs",
    "Linalg.C123_sparse_rest",
    "Linalg.C123_dense",
    "Linalg.C123_blockOperator",
    "Linalg.C123_timer",
    "Linalg.C123_args",
    "Linalg.C123_parser",
    "Linalg.C123_solvers_partial",
    "Linalg.C123_solvers_false",
    "Linalg.C123_blockMatrix",
    "Linalg.C123_vector",
    "Linalg.C123_vectorRest",
    "Linalg.C123_eigensolve",
    "Linalg.C123_blockVector"
   ],
   "note": "Partial because the test uses max_iter = size, with which CG and PCG make one step too few (C123_solvers_false); C123_solvers_partial needs one iteration more for them. Random draws, LAPACK and the clock are parameters; printing is not modelled."
  },
  {
   "property": "C124",
   "status": "proved",
   "theorems": [
    "Linalg.C124_iterations",
    "Linalg.C124_iterations_cg",
    "Linalg.C124_cg",
    "Linalg.C124_pcg",
    "Linalg.C124_decreases",
    "Linalg.C124_exact",
    "Linalg.C124_spectral",
    "Linalg.C124_rate",
    "Linalg.C124_rate_cg",
    "Linalg.C124_distinct"
   ],
   "note": "In exact arithmetic."
  },
  {
   "property": "C125",
   "status": "proved",
   "theorems": [
    "Linalg.Example.C125_constructors",
    "Linalg.Example.C125_access",
    "Linalg.Example.C125_access_rejects",
    "Linalg.Example.C125_ops",
    "Linalg.Example.C125_dense",
    "Linalg.Example.C125_open",
    "Linalg.Example.C125_vector",
    "Linalg.Example.C125_data"
   ],
   "note": "Exact arithmetic; printing is not modelled, the values shown are results."
  },
  {
   "property": "C126",
   "status": "partial",
   "theorems": [
    "Linalg.C126_told",
    "Linalg.C126_told_copy",
    "Linalg.C126_right_iff",
    "Linalg.C126_square_partial",
    "Linalg.C126_false"
   ],
   "note": "Partial because the code exchanges the two vectors of a rectangular matrix (C126_false, C126_right_iff); C126_square_partial is the case of equal distributions. What hypre does with the wrong sizes is not modelled."
  },
  {
   "property": "C127",
   "status": "proved",
   "theorems": [
    "Linalg.C127_pcg",
    "Linalg.C127_minres",
    "Linalg.C127_pminres",
    "Linalg.C127_inPlace"
   ],
   "note": "The operator, preconditioner and inner product are functions on lists of elements; the work vectors are members and separate from the memory of b and x."
  },
  {
   "property": "C128",
   "status": "proved",
   "theorems": [
    "Linalg.C128_eq_iff",
    "Linalg.C128_eq_nan",
    "Linalg.C128_eq_false",
    "Linalg.C128_dense_iff",
    "Linalg.C128_dense_nan",
    "Linalg.C128_max_first",
    "Linalg.C128_max_rest",
    "Linalg.C128_eliminate_sparse",
    "Linalg.C128_eliminate_coo",
    "Linalg.C128_eliminate_lil",
    "Linalg.C128_add",
    "Linalg.C128_mult",
    "Linalg.C128_pcg_nan",
    "Linalg.C128_pcg_rhs",
    "Linalg.C128_pcg_matrix",
    "Linalg.C128_pcg_solved",
    "Linalg.C128_minres_nan",
    "Linalg.C128_pminres_nan",
    "Linalg.C128_csr_zero",
    "Linalg.C128_pcg_exact",
    "Linalg.C128_minres_exact",
    "Linalg.C128_pminres_exact",
    "Linalg.C128_csr_exact",
    "Linalg.C128_inner_exact",
    "Linalg.C128_vector_exact"
   ],
   "note": "Laws of NaN and of zeros are hypotheses (classes NanLaws, ZeroLaws) with an instance: an ordered field with NaN and two infinities (Ext). Rounding, overflow and the sign of zero are not in Ext; IEEE double precision (Dbl, see C129) is a second instance, with rounding and overflow. BLAS products are not covered."
  },
  {
   "property": "C129",
   "status": "proved",
   "theorems": [
    "Linalg.C129_passes",
    "Linalg.C129_gap",
    "Linalg.C129_stop",
    "Linalg.C129_bounds",
    "Linalg.C129_stop_false"
   ],
   "note": "The laws of rounding are a class (RoundLaws); IEEE double precision is an instance (Dbl), computed over the rationals, with one zero and one NaN. The inner product of C129_stop is that of the library, summed in order. C129_stop_false is the negation for the true residual: a run in double precision for 3 x = 1."
  },
  {
   "property": "C130",
   "status": "proved",
   "theorems": [
    "Linalg.C130_sparse",
    "Linalg.C130_other",
    "Linalg.C130_product",
    "Linalg.C130_inner",
    "Linalg.C130_norm_small",
    "Linalg.C130_norm_large",
    "Linalg.C130_mean_empty",
    "Linalg.C130_subAvg",
    "Linalg.C130_pcg"
   ],
   "note": "The laws of rounding and range are classes (RoundLaws, RangeLaws) with IEEE double precision (Dbl) as instance. The square root is any function that is right for zero and infinity. Dense products are sums in the order of the loops, as in C103; a BLAS may sum in another order."
  },
  {
   "property": "C131",
   "status": "proved",
   "theorems": [
    "Linalg.C131_div",
    "Linalg.C131_over",
    "Linalg.C131_scalar",
    "Linalg.C131_sparse_rows",
    "Linalg.C131_sparse_cols",
    "Linalg.C131_dense",
    "Linalg.C131_nan",
    "Linalg.C131_lu",
    "Linalg.C131_forward",
    "Linalg.C131_back",
    "Linalg.C131_finite",
    "Linalg.C131_lu_false"
   ],
   "note": "The laws of division are a class (DivLaws) with instances for Ext K and IEEE double precision (Dbl). The two vectors of x /= y share no memory here; C28 has the views that do, without NaN."
  },
  {
   "property": "C132",
   "status": "proved",
   "theorems": [
    "Linalg.C132_order",
    "Linalg.C132_mult",
    "Linalg.C132_multAT",
    "Linalg.C132_product",
    "Linalg.C132_dense",
    "Linalg.C132_vector",
    "Linalg.C132_multDense",
    "Linalg.C132_pcg",
    "Linalg.C132_bound_false",
    "Linalg.C132_lu",
    "Linalg.C132_solve"
   ],
   "note": "Double precision is the computable model of IEEE 754 in Spec/Ieee.lean (round to nearest, ties to even, one zero). The bound is on the sum of the absolute values, not on the result."
  },
  {
   "property": "C133",
   "status": "proved",
   "theorems": [
    "Linalg.Io.C133_loop",
    "Linalg.Io.C133_lists",
    "Linalg.Io.C133_graph",
    "Linalg.Io.C133_stop",
    "Linalg.Io.C133_count",
    "Linalg.Io.C133_table",
    "Linalg.Io.C133_mtx",
    "Linalg.Io.C133_mtx_rows",
    "Linalg.Io.C133_csr",
    "Linalg.Io.C133_csr_roundTrip",
    "Linalg.Io.C133_csr_wrap",
    "Linalg.Io.C133_csr_memory",
    "Linalg.Io.C133_binary",
    "Linalg.Io.C133_binary_sizes",
    "Linalg.Io.C133_lost",
    "Linalg.Io.C133_table_lost"
   ],
   "note": "Stream extraction follows C++11: an int that does not fit sets the fail bit, an unsigned number with a minus sign is taken modulo 2^64. The memory limit is checked for the vectors whose size is read from the file."
  },
  {
   "property": "C134",
   "status": "proved",
   "theorems": [
    "Linalg.C134_innerProduct",
    "Linalg.C134_parMult",
    "Linalg.C134_l2Norm",
    "Linalg.C134_parL2Norm",
    "Linalg.C134_parL2Norm_wrong",
    "Linalg.C134_one",
    "Linalg.C134_symm",
    "Linalg.C134_operator",
    "Linalg.C134_same",
    "Linalg.C134_normalize",
    "Linalg.C134_normalize_rejects",
    "Linalg.C134_mean",
    "Linalg.C134_subAvg"
   ],
   "note": "The argument has the same type on all processes, and ParVectors use the communicator passed to ParMult. std::sqrt is a parameter."
  },
  {
   "property": "C135",
   "status": "proved",
   "theorems": [
    "Linalg.Dbl.C135_sqrt",
    "Linalg.Dbl.C135_norm",
    "Linalg.Dbl.C135_normalize",
    "Linalg.Dbl.C135_assert",
    "Linalg.Dbl.C135_normalize_wrong"
   ],
   "note": "double is modelled by rational numbers with rounding to nearest even, infinities and NaN (Spec/Ieee.lean); std::sqrt is the computable Dbl.sqrt (Spec/DblSqrt.lean), proved to be the nearest double. No fused multiply-add, no extended precision, no reordering of the sum."
  },
  {
   "property": "C136",
   "status": "proved",
   "theorems": [
    "Linalg.C136_ranges",
    "Linalg.C136_local",
    "Linalg.C136_footprint",
    "Linalg.C136_parMult",
    "Linalg.C136_fewer_threads"
   ],
   "note": "One row of a thread is one step of the interleaving; C136_footprint shows that a row of the second pass touches only its own places of the shared arrays, so a finer interleaving gives the same result. The number of threads is the same in all parallel regions, but for C136_fewer_threads, the negation for a region with fewer threads than hypre_NumThreads()."
  },
  {
   "property": "C137",
   "status": "proved",
   "theorems": [
    "Linalg.C137_debug",
    "Linalg.C137_same",
    "Linalg.C137_views",
    "Linalg.C137_inner",
    "Linalg.C137_mult",
    "Linalg.C137_multAT",
    "Linalg.C137_accepts",
    "Linalg.C137_toSparse_row",
    "Linalg.C137_cooMult",
    "Linalg.C137_cooMultAT"
   ],
   "note": "The functions named in the statement; the others are modelled for a debug build only. Views are positions in one memory, so an access beyond a view but inside the memory is an access to what lies there."
  },
  {
   "property": "C138",
   "status": "proved",
   "theorems": [
    "Linalg.C138_debug",
    "Linalg.C138_same",
    "Linalg.C138_div",
    "Linalg.C138_normalize",
    "Linalg.C138_minres_loop",
    "Linalg.C138_minres_solved",
    "Linalg.C138_pminres_loop",
    "Linalg.C138_pminres_solved",
    "Linalg.C138_breakdown"
   ],
   "note": "The inner product of the solvers is the default one. The operators keep their assertions on sizes, which hold in these runs. std::sqrt is any function that takes NaN to NaN and zero to zero."
  },
  {
   "property": "C139",
   "status": "proved",
   "theorems": [
    "Linalg.C139_debug",
    "Linalg.C139_same",
    "Linalg.C139_access",
    "Linalg.C139_ofData",
    "Linalg.C139_mult",
    "Linalg.C139_multAT",
    "Linalg.C139_multD",
    "Linalg.C139_multBTD",
    "Linalg.C139_zip",
    "Linalg.C139_invert"
   ],
   "note": "The products of two matrices are stated for matrices with at least one row (and at least one column for the transposed first factor), as in the checks of dgemm. Invert is stated for square matrices; LAPACK is a contract. SetSize inside the products keeps its assertion, which holds there."
  },
  {
   "property": "C140",
   "status": "proved",
   "theorems": [
    "Linalg.C140_debug",
    "Linalg.C140_same",
    "Linalg.C140_multSparse",
    "Linalg.C140_multDense",
    "Linalg.C140_multATDense",
    "Linalg.C140_getDiag",
    "Linalg.C140_addDiag",
    "Linalg.C140_scaleRows",
    "Linalg.C140_scaleCols",
    "Linalg.C140_permuteCols",
    "Linalg.C140_eliminate"
   ],
   "note": "The products with a dense matrix that has no columns touch nothing; the out-of-bounds results are stated for at least one column. SetSize inside the products keeps its assertion, which holds there."
  },
  {
   "property": "C141",
   "status": "proved",
   "theorems": [
    "Linalg.C141_debug",
    "Linalg.C141_same",
    "Linalg.C141_add",
    "Linalg.C141_toSparse",
    "Linalg.C141_mult",
    "Linalg.C141_multAT",
    "Linalg.C141_addBlock_debug",
    "Linalg.C141_addBlock"
   ],
   "note": "ToSparse is stated for matrices that were given a size; without a size it does not depend on the assertions (C25)."
  },
  {
   "property": "C142",
   "status": "proved",
   "theorems": [
    "Linalg.C142_debug",
    "Linalg.C142_same",
    "Linalg.C142_setBlock",
    "Linalg.C142_transpose",
    "Linalg.C142_mult",
    "Linalg.C142_multAT",
    "Linalg.C142_combine"
   ],
   "note": "The offsets are those of a partition of the rows and columns and each block is a well-formed matrix of any size."
  },
  {
   "property": "C143",
   "status": "proved",
   "theorems": [
    "Linalg.C143_debug",
    "Linalg.C143_same",
    "Linalg.C143_row",
    "Linalg.C143_addDiagVal",
    "Linalg.C143_eliminateRowCol",
    "Linalg.C143_eliminateColMarker",
    "Linalg.C143_eliminateRowColMarker",
    "Linalg.C143_getSubMatrixMarker",
    "Linalg.C143_getSubMatrix"
   ],
   "note": "The marker of GetSubMatrix is full of -1 on entry. EliminateCol(marker, x, b) is modelled with assertions only (C09)."
  },
  {
   "property": "C144",
   "status": "proved",
   "theorems": [
    "Linalg.C144_debug",
    "Linalg.C144_same",
    "Linalg.C144_getCol",
    "Linalg.C144_getRow",
    "Linalg.C144_setCol",
    "Linalg.C144_setRow",
    "Linalg.C144_getDiag",
    "Linalg.C144_getSub",
    "Linalg.C144_setSub",
    "Linalg.C144_setSub_inside"
   ],
   "note": "SetSize keeps its assertion; the range given to GetSubMatrix is assumed not to be negative. The element type is any type with a zero."
  },
  {
   "property": "C145",
   "status": "proved",
   "theorems": [
    "Linalg.C145_debug",
    "Linalg.C145_same",
    "Linalg.C145_extremes",
    "Linalg.C145_getSubVector",
    "Linalg.C145_timer",
    "Linalg.C145_getRows",
    "Linalg.C145_hstack"
   ],
   "note": "Extremes are those of a linear order; SetSize keeps its assertion, which always holds here."
  },
  {
   "property": "C146",
   "status": "proved",
   "theorems": [
    "Linalg.C146_debug",
    "Linalg.C146_same",
    "Linalg.C146_addSub",
    "Linalg.C146_setSubT",
    "Linalg.C146_setSubT_inside"
   ],
   "note": "Elements of a commutative monoid for AddSubMatrix; the block is a different object than the matrix."
  },
  {
   "property": "C147",
   "status": "proved",
   "theorems": [
    "Linalg.C147_debug",
    "Linalg.C147_same",
    "Linalg.C147_eliminateColRhs"
   ],
   "note": "Exact ring arithmetic."
  },
  {
   "property": "C148",
   "status": "proved",
   "theorems": [
    "Linalg.C148_debug",
    "Linalg.C148_same",
    "Linalg.C148_combine",
    "Linalg.C148_divAssign",
    "Linalg.C148_divFloat",
    "Linalg.C148_divScalar",
    "Linalg.C148_getBlock",
    "Linalg.C148_getColView"
   ],
   "note": "The division is a parameter: one that is undefined for zero, or one that always has a result."
  },
  {
   "property": "C149",
   "status": "proved",
   "theorems": [
    "Linalg.C149_debug",
    "Linalg.C149_same",
    "Linalg.C149_invRows",
    "Linalg.C149_invCols",
    "Linalg.C149_scalars",
    "Linalg.C149_sparse_same",
    "Linalg.C149_sparseRows",
    "Linalg.C149_sparseCols"
   ],
   "note": "The division of double is a parameter that always has a result."
  },
  {
   "property": "C150",
   "status": "proved",
   "theorems": [
    "Linalg.C150_debug",
    "Linalg.C150_mult",
    "Linalg.C150_multAT",
    "Linalg.C150_same",
    "Linalg.C150_history",
    "Linalg.C150_setBlock",
    "Linalg.C150_short"
   ],
   "note": "The operators in the blocks are parameters. Work vectors are part of the state, so the history of calls counts."
  },
  {
   "property": "C151",
   "status": "proved",
   "theorems": [
    "Linalg.C151_debug",
    "Linalg.C151_line",
    "Linalg.C151_zip",
    "Linalg.C151_block",
    "Linalg.C151_permute",
    "Linalg.C151_setSize",
    "Linalg.C151_same"
   ],
   "note": "Lists are std::vectors or views that are the whole of their memory."
  },
  {
   "property": "C152",
   "status": "proved",
   "theorems": [
    "Linalg.Util.C152_debug",
    "Linalg.Util.C152_accepts",
    "Linalg.Util.C152_same",
    "Linalg.Util.C152_shift"
   ],
   "note": "A string is a list of characters."
  }
 ]
}