{"id": "C01", "title": "Sparse matrix-vector product is correct and in bounds", "statement": "For a well-formed SparseMatrix A and a vector x of length Cols(), Mult(x, y) with y of length Rows() performs no out-of-range access and no failed assertion, and leaves y[i] = sum over j of A(i,j)*x[j], where A(i,j) is the sum of the values stored at (i,j); the previous contents of y are irrelevant. Calls with wrong lengths are rejected by an assertion.", "quantifier": "every well-formed CSR matrix of every size (empty rows, unsorted columns and duplicates included), every x, every initial y", "why_tests_cant": "tests multiply a handful of fixed 3x3/10x10 matrices; row ranges, duplicates and empty rows form an unbounded input space", "anchors": ["include/sparsematrix.hpp: SparseMatrix::Mult(const VectorView<U>&, VectorView<V>), operator*"]}
{"id": "C02", "title": "Transposed product is correct and is the adjoint of Mult", "statement": "For a well-formed SparseMatrix A, MultAT(x, y) with x of length Rows() and y of length Cols() stays in bounds and leaves y[j] = sum over i of A(i,j)*x[i], regardless of what y held before; consequently <A u, v> = <u, A^T v> for all u, v.", "quantifier": "every well-formed CSR matrix, every pair of vectors of matching lengths, every initial content of the output", "why_tests_cant": "the scatter loop's correctness depends on every row/column pattern; tests use a few square matrices", "anchors": ["include/sparsematrix.hpp: SparseMatrix::MultAT(const VectorView<U>&, VectorView<V>)"]}
{"id": "C03", "title": "Transpose moves every stored entry to its mirrored position", "statement": "For a well-formed SparseMatrix A, Transpose() returns a well-formed matrix with Rows and Cols exchanged and the same number of stored entries; row j of the result lists exactly the stored entries of A in column j, as (row, value), in increasing row order and with values bit-for-bit unchanged. Hence A^T(j,i) = A(i,j) for all i, j, the result has sorted rows, and transposing twice represents A again.", "quantifier": "every well-formed CSR matrix over any value type (no algebraic laws needed), including duplicates, empty rows and rectangular shapes", "why_tests_cant": "the counting-sort with in-place pointer bumping is correct only through an invariant over all entries processed so far; tests only cover a few literals", "anchors": ["include/sparsematrix.hpp: SparseMatrix::Transpose"]}
{"id": "C04", "title": "Sparse-sparse product is correct and independent of the marker workspace", "statement": "For well-formed A (m x k) and B (k x n), A.Mult(B) and A.Mult(B, marker) return a well-formed m x n matrix C with C(i,j) = sum over l of A(i,l)*B(l,j) and with no duplicated column in any row, for any initial contents and length of the marker vector.", "quantifier": "every conformable pair of well-formed CSR matrices and every initial marker", "why_tests_cant": "two-pass symbolic/numeric algorithm with shared marker state: counting and filling must agree for all sparsity patterns", "anchors": ["include/sparsematrix.hpp: SparseMatrix::Mult(const SparseMatrix<U>&, std::vector<int>&), SparseMatrix::Mult(const SparseMatrix<U>&)"]}
{"id": "C05", "title": "SortIndices sorts each row without changing the matrix", "statement": "SortIndices() on a well-formed matrix leaves every row's columns in non-decreasing order, the (column, value) pairs of each row a permutation of what they were, Rows/Cols/nnz/row sizes unchanged, and therefore every entry A(i,j) and every product unchanged.", "quantifier": "every well-formed CSR matrix; every outcome allowed by the unstable std::sort", "why_tests_cant": "std::sort is unstable and only specified up to permutation; correctness must hold for every row and every permitted outcome", "anchors": ["include/sparsematrix.hpp: SparseMatrix::SortIndices"]}
{"id": "C06", "title": "ToDense represents the same matrix as Mult", "statement": "For a well-formed matrix, ToDense() has the same shape and ToDense()(i,j) equals the coefficient A(i,j) that Mult uses. (The code assigns instead of adding, so this holds exactly when no row stores a column twice; with duplicates the last stored value wins.)", "quantifier": "every well-formed CSR matrix and every (i,j)", "why_tests_cant": "requires all patterns, in particular duplicated coordinates, which no test builds", "anchors": ["include/sparsematrix.hpp: SparseMatrix::ToDense() const, SparseMatrix::ToDense(DenseMatrix&)"]}
{"id": "C07", "title": "Submatrix extraction picks exactly the requested entries and restores the marker", "statement": "For a well-formed A, row list rows and a duplicate-free column list cols, both in range, and a marker of length at least Cols() filled with -1, GetSubMatrix(rows, cols, marker) returns a well-formed |rows| x |cols| matrix S with S(p,q) = A(rows[p], cols[q]), and leaves the marker filled with -1, so any sequence of extractions sharing one marker is correct. If a column is requested several times, its entries are in the last of its copies and the other copies are zero. A row or column out of range is rejected.", "quantifier": "every well-formed matrix, every in-range rows and cols, repeats allowed in both, every history of extractions sharing one marker", "why_tests_cant": "depends on a marker protocol across calls (history) and on all index lists", "anchors": ["include/sparsematrix.hpp: SparseMatrix::GetSubMatrix"]}
{"id": "C08", "title": "EliminateZeros removes exactly the small entries", "statement": "EliminateZeros(tol) on a well-formed SparseMatrix keeps, in order, exactly the stored entries with |v| > tol, drops the others, and leaves a well-formed matrix of the same shape; with tol = 0 the represented matrix is unchanged and no stored zero remains.", "quantifier": "every well-formed matrix, every tolerance", "why_tests_cant": "in-place compaction with running offsets must be right for every pattern of removed entries", "anchors": ["include/sparsematrix.hpp: SparseMatrix::EliminateZeros"]}
{"id": "C09", "title": "Row/column elimination has the documented effect and nothing else", "statement": "EliminateRow(i) makes every coefficient of row i zero; EliminateCol(j)/EliminateCol(marker) zero exactly the marked columns; EliminateRowCol(index/marker) zero the marked rows and columns and set stored diagonal entries of marked indices to 1; all other entries and the sparsity pattern are unchanged. EliminateCol(marker, x, b) additionally subtracts A(i,j)*x[j] from b[i] for every marked j, so a solution of A x = b is still a solution of the modified system.", "quantifier": "every well-formed matrix, every index, marker, x and b of admissible length", "why_tests_cant": "quantifies over all patterns, markers and right-hand sides", "anchors": ["include/sparsematrix.hpp: EliminateRow, EliminateCol, EliminateRowCol"]}
{"id": "C10", "title": "Diagonal accessors agree with the matrix", "statement": "On a square well-formed matrix, GetDiag()[i] = A(i,i) for every i (0 when absent) and AddDiag(d) changes A(i,i) to A(i,i)+d_i and nothing else. (The code takes the last duplicate in GetDiag, and in AddDiag adds once per stored diagonal entry and nothing when the entry is missing: the claim holds exactly when each row stores its diagonal at most / exactly once.)", "quantifier": "every square well-formed matrix and every diagonal", "why_tests_cant": "must hold for every pattern; missing or duplicated diagonal entries are not tested", "anchors": ["include/sparsematrix.hpp: GetDiag, AddDiag"]}
{"id": "C11", "title": "A matrix accepted by the array constructor is safe to use", "statement": "If SparseMatrix(indptr, indices, data, rows, cols) passes its assertions then the stored structure is consistent and later operations never read out of range. (The constructor checks neither that indptr is non-decreasing nor that its last element equals nnz, so the claim is false; with these two extra conditions it holds.)", "quantifier": "every triple of arrays and every rows, cols", "why_tests_cant": "the interesting inputs are malformed arrays, of which there are infinitely many; tests pass valid ones", "anchors": ["include/sparsematrix.hpp: SparseMatrix(std::vector<int>, std::vector<int>, std::vector<T>, int, int)"]}
{"id": "C12", "title": "Row and column scaling multiply by the given diagonal and are undone by inverse scaling", "statement": "ScaleRows(d) makes A(i,j) := d[i]*A(i,j), ScaleCols(d) makes A(i,j) := A(i,j)*d[j], with the pattern unchanged; over a field, InverseScaleRows(d) after ScaleRows(d) (and likewise for columns) restores the stored values when no d[i] is zero. The overloads taking a SparseMatrix use its stored values as the diagonal.", "quantifier": "every well-formed matrix and every d of the required length", "why_tests_cant": "quantifies over all matrices and diagonals", "anchors": ["include/sparsematrix.hpp: ScaleRows, ScaleCols, InverseScaleRows, InverseScaleCols"]}
{"id": "C13", "title": "PermuteCols relabels columns", "statement": "If perm is a permutation of 0..Cols()-1, PermuteCols(perm) leaves a well-formed matrix A' with A'(i, perm[j]) = A(i,j) for all i, j; permuting by the inverse permutation restores A exactly.", "quantifier": "every well-formed matrix and every permutation", "why_tests_cant": "all permutations and all patterns", "anchors": ["include/sparsematrix.hpp: PermuteCols"]}
{"id": "C14", "title": "Sparse-dense products are correct in all three layouts", "statement": "For well-formed A and dense B of matching shape, Mult(B) = A B, MultAT(B) = A^T B and MultCT(B) = (A B)^T, entry by entry, with no out-of-range access.", "quantifier": "every well-formed A and every dense B of conforming shape", "why_tests_cant": "all shapes and patterns; index arithmetic is column-major", "anchors": ["include/sparsematrix.hpp: Mult(const DenseMatrix&, DenseMatrix&), MultAT(const DenseMatrix&, DenseMatrix&), MultCT(const DenseMatrix&, DenseMatrix&)"]}
{"id": "C15", "title": "Scalar updates act on the represented matrix", "statement": "A *= s and A /= s (s != 0) scale every coefficient and keep the pattern; A = s sets all stored values to s; A *= s followed by A /= s is the identity over a field; Sum() is the sum of all coefficients and MaxNorm() the sum of the absolute stored values (as documented).", "quantifier": "every well-formed matrix and scalar", "why_tests_cant": "all sizes and values", "anchors": ["include/sparsematrix.hpp: operator*=, operator/=, operator=(U), Sum, MaxNorm"]}
{"id": "C16", "title": "Well-formedness is preserved by every history of SparseMatrix operations", "statement": "Starting from well-formed matrices, any finite sequence of public mutating operations and constructions (Transpose, Mult, GetSubMatrix, SortIndices, EliminateZeros, Eliminate*, Scale*, PermuteCols with an in-range map, scalar updates, AddDiag), each called within its documented preconditions, never makes an out-of-range access or failed assertion and ends in a well-formed matrix.", "quantifier": "every finite sequence of operations with every admissible argument", "why_tests_cant": "histories are unbounded", "anchors": ["include/sparsematrix.hpp: class SparseMatrix"]}
{"id": "C17", "title": "CooMatrix::ToSparse represents exactly the sum of the added entries", "statement": "For every sequence of Add calls accepted by a CooMatrix, ToSparse() returns a well-formed SparseMatrix of the size reported by FindSize(), in which no row stores a column twice and A(i,j) is the sum of all values added at (i,j); the order in which entries were added does not change A(i,j).", "quantifier": "every sequence of adds (any length, any duplicates), sized or unsized", "why_tests_cant": "quantifies over histories of adds; hash/map-based merging must be right for all of them", "anchors": ["include/coomatrix.hpp: CooMatrix::Add, CooMatrix::ToSparse, CooMatrix::FindSize"]}
{"id": "C18", "title": "CooMatrix conversions agree", "statement": "ToDense() and ToSparse() of the same CooMatrix represent the same matrix, and on a sized CooMatrix Mult(x, y) gives the same result as ToSparse().Mult(x, y).", "quantifier": "every sequence of adds, every vector", "why_tests_cant": "all histories of adds", "anchors": ["include/coomatrix.hpp: ToDense, ToSparse, Mult"]}
{"id": "C19", "title": "CooMatrix size inference and bounds checking", "statement": "A CooMatrix with a set size reports that size and rejects (by assertion) any Add outside it; an unsized one reports the least size containing every entry. (For an empty unsized matrix the code reports 1x1.)", "quantifier": "every sequence of adds", "why_tests_cant": "histories of adds are unbounded", "anchors": ["include/coomatrix.hpp: FindSize, SetSize, Add"]}
{"id": "C20", "title": "Symmetric and block adds", "statement": "AddSym(i,j,v) adds v at (i,j) and, if i != j, at (j,i), so a matrix built only by AddSym is symmetric; Add(rows, cols, dense) adds dense(p,q) at (rows[p], cols[q]) for all p, q; the scaled, vector, diagonal and transposed forms act accordingly.", "quantifier": "every index list, dense block, scale and history", "why_tests_cant": "all sizes of index lists and histories", "anchors": ["include/coomatrix.hpp: AddSym, Add(const std::vector<int>&, const std::vector<int>&, const DenseMatrix&) and overloads"]}
{"id": "C21", "title": "CooMatrix::MultAT computes the transposed product", "statement": "On a sized m x n CooMatrix, MultAT(x, y) with x of length m and y of length n leaves y[j] = sum over i of A(i,j)*x[i]. (The size assertions are written for the untransposed product, so for m != n the correct call aborts and the accepted call writes out of range: the claim holds only for square matrices.)", "quantifier": "every sized CooMatrix, rectangular included, and every vector", "why_tests_cant": "tests call it on square matrices only", "anchors": ["include/coomatrix.hpp: CooMatrix::MultAT", "include/lilmatrix.hpp: LilMatrix::MultAT"]}
{"id": "C22", "title": "CooMatrix permutations relabel rows and columns", "statement": "For permutations p, PermuteRows(p) moves the coefficient at (i,j) to (p[i], j), PermuteCols(p) to (i, p[j]) and PermuteRowsCols(p,q) to (p[i], q[j]); values and number of entries are unchanged.", "quantifier": "every CooMatrix and permutation", "why_tests_cant": "all permutations and entry lists", "anchors": ["include/coomatrix.hpp: PermuteRows, PermuteCols, PermuteRowsCols"]}
{"id": "C23", "title": "EliminateZeros on coordinate formats removes zeros", "statement": "EliminateZeros(tol) of CooMatrix and LilMatrix removes every entry not larger than tol in absolute value, like SparseMatrix::EliminateZeros, so with the default tolerance no stored zero remains. (The code removes |v| < tol strictly, so with the default tolerance it removes nothing: claim false; exact behaviour proved.)", "quantifier": "every entry list and tolerance", "why_tests_cant": "a boundary case of the comparison for every value", "anchors": ["include/coomatrix.hpp: EliminateZeros", "include/lilmatrix.hpp: EliminateZeros"]}
{"id": "C24", "title": "LilMatrix::ToSparse represents the added entries with sorted rows", "statement": "For every sequence of adds to a LilMatrix constructed with a size, ToSparse() returns a well-formed matrix of that size with strictly increasing columns in each row and A(i,j) equal to the sum of the values added at (i,j).", "quantifier": "every sequence of adds", "why_tests_cant": "histories of adds; sort-and-merge loop", "anchors": ["include/lilmatrix.hpp: LilMatrix::Add, LilMatrix::ToSparse"]}
{"id": "C25", "title": "LilMatrix without a given size behaves like CooMatrix without a given size", "statement": "An unsized LilMatrix reports the least size containing every entry, and ToSparse() is well-formed. (The code reports one row too many and leaves the last row pointer 0, so the result is malformed: claim false.)", "quantifier": "every non-empty history of adds", "why_tests_cant": "the defect shows only through indptr; tests compare sums of dense entries", "anchors": ["include/lilmatrix.hpp: LilMatrix::FindSize, LilMatrix::ToSparse"]}
{"id": "C26", "title": "LilMatrix::SetSize keeps later operations in bounds", "statement": "After SetSize(r, c) any Add(i, j, v) with i < r and j < c is safe and ToSparse() is well-formed. (SetSize does not resize the row storage: on an unsized matrix a later Add to a new row is out of range: claim false.)", "quantifier": "every history of SetSize and Add", "why_tests_cant": "needs histories mixing SetSize and Add", "anchors": ["include/lilmatrix.hpp: LilMatrix::SetSize, LilMatrix::Add"]}
{"id": "C27", "title": "Views alias exactly the part of the owner they name", "statement": "Writing through a view (VectorView of a Vector, BlockVector::GetBlock, DenseMatrix::GetColView) changes exactly the elements the view names in its owner and no other memory, and reading the owner afterwards returns what was written.", "quantifier": "every owner, view range and written values", "why_tests_cant": "all offsets and sizes; frame condition over all memory", "anchors": ["include/vectorview.hpp: VectorView", "include/blockvector.hpp: BlockVector::GetBlock", "include/densematrix.hpp: DenseMatrix::GetColView"]}
{"id": "C28", "title": "Element-wise vector updates are exact and safe under aliasing", "statement": "x.Add(a, y), x.Sub(a, y), x.Set(a, y), x += y, x -= y, x *= y, x /= y, Add(alpha,x,beta,y,gamma,z), Add(x,y,z) and Sub(x,y,z) leave in each element the stated combination of the ORIGINAL elements at the same index, also when operands are the same vector; other memory is untouched.", "quantifier": "every size, every value, every aliasing of whole operands (disjoint or identical)", "why_tests_cant": "aliasing patterns are not tested", "anchors": ["include/vectorview.hpp: Add, Sub, Set, operator+=, operator-=, operator*=, operator/="]}
{"id": "C29", "title": "Vector equality tolerance relation", "statement": "operator== is true exactly when sizes are equal and every |x_i - y_i| <= 1e-12; it is reflexive and symmetric. (It is not transitive, so it is not an equivalence relation: negation proved.)", "quantifier": "every pair of vectors", "why_tests_cant": "a relation over all vectors", "anchors": ["include/vectorview.hpp: operator==, operator!=", "src/densematrix.cpp: DenseMatrix::operator=="]}
{"id": "C30", "title": "Reductions are correct", "statement": "InnerProduct(x,y) = sum x_i*y_i, Sum, Mean, Max, Min, AbsMax, AbsMin return the mathematically stated value for every non-empty vector; Max/Min return an element of the vector bounding all others; InnerProduct rejects different lengths.", "quantifier": "every vector", "why_tests_cant": "all lengths and values", "anchors": ["include/vectorview.hpp: InnerProduct, Sum, Mean, Max, Min, AbsMax, AbsMin"]}
{"id": "C31", "title": "SubAvg and Normalize establish their postconditions", "statement": "After SubAvg(v) on a non-empty vector Sum(v) = 0 and all pairwise differences are unchanged; after Normalize(v) on a non-zero vector the squared norm is 1 (exact arithmetic).", "quantifier": "every vector", "why_tests_cant": "all lengths and values", "anchors": ["src/vectorview.cpp: SubAvg, Normalize"]}
{"id": "C32", "title": "Vector resizing preserves the common prefix", "statement": "SetSize(n) makes the length n and keeps the first min(n, old) elements; SetSize(n, v) fills only the new elements with v. GetSubVector by index list reads exactly the named positions and rejects positions outside the vector.", "quantifier": "every vector, size and index list", "why_tests_cant": "all sizes", "anchors": ["include/vector.hpp: SetSize", "include/vectorview.hpp: GetSubVector"]}
{"id": "C33", "title": "Dense element access is a faithful column-major layout", "statement": "For DenseMatrix of any shape, writing (i,j) and reading (k,l) returns the written value iff (i,j) = (k,l) and the old value otherwise; in-range accesses never leave the buffer, out-of-range ones are rejected.", "quantifier": "every shape and all index pairs", "why_tests_cant": "injectivity of the layout for all shapes", "anchors": ["include/densematrix.hpp: DenseMatrix::operator()"]}
{"id": "C34", "title": "Dense submatrix get/set round-trip", "statement": "For admissible ranges, GetSubMatrix returns the block entrywise; SetSubMatrix writes exactly the block, AddSubMatrix adds exactly to the block; Get after Set returns the block and Set after Get changes nothing; SetSubMatrixTranspose writes the transposed block. GetRow/SetRow/GetCol/SetCol are the corresponding special cases.", "quantifier": "every matrix, every range and every block", "why_tests_cant": "all shapes and ranges, and the frame condition", "anchors": ["src/densematrix.cpp: GetSubMatrix, SetSubMatrix, SetSubMatrixTranspose, AddSubMatrix, GetRow, SetRow, GetCol, SetCol"]}
{"id": "C35", "title": "Dense transpose", "statement": "Transpose() exchanges shape and T(j,i) = A(i,j); transposing twice gives back the identical matrix.", "quantifier": "every dense matrix", "why_tests_cant": "all shapes", "anchors": ["src/densematrix.cpp: DenseMatrix::Transpose"]}
{"id": "C36", "title": "Dense matrix-vector products", "statement": "Mult(x,y) leaves y_i = sum_j A(i,j) x_j and MultAT(x,y) leaves y_j = sum_i A(i,j) x_i, whatever y held before, and sizes are checked.", "quantifier": "every matrix and vector", "why_tests_cant": "all shapes", "anchors": ["include/densematrix.hpp: DenseMatrix::Mult(const VectorView<U>&, VectorView<V>), MultAT"]}
{"id": "C37", "title": "Dense matrix-matrix products pass the right shapes and strides to BLAS", "statement": "Given a dgemm obeying its published contract, Mult, MultAT, MultBT and MultABT return A B, A^T B, A B^T and A^T B^T for all conforming shapes with at least one row, with every buffer access of dgemm inside the three buffers.", "quantifier": "every conforming pair of shapes and all values", "why_tests_cant": "leading-dimension mistakes only show on particular rectangular shapes", "anchors": ["src/densematrix.cpp: DenseMatrix::Mult, MultAT, MultBT, MultABT, dgemm"]}
{"id": "C38", "title": "Horizontal stacking", "statement": "HStack of dense matrices with equal row counts returns the matrix whose columns are the concatenated columns of the arguments in order.", "quantifier": "every list of dense matrices with equal positive row count", "why_tests_cant": "all list lengths and widths", "anchors": ["src/densematrix.cpp: HStack"]}
{"id": "C39", "title": "BlockMatrix products equal the product with the combined matrix", "statement": "For a BlockMatrix with consistent offsets and blocks, Combine() is a well-formed SparseMatrix with (row_off[I]+i, col_off[J]+j) entry equal to Block(I,J)(i,j), and Mult / MultAT equal Combine().Mult / Combine().MultAT.", "quantifier": "every block layout, every block, unset blocks included", "why_tests_cant": "all layouts and patterns", "anchors": ["include/blockmatrix.hpp: Combine, Mult, MultAT, SetBlock, GetBlock"]}
{"id": "C40", "title": "BlockMatrix::Transpose represents the transpose", "statement": "Transpose().Combine() equals Combine().Transpose(). (The code moves blocks without transposing them and asserts on unset or rectangular blocks: claim false.)", "quantifier": "every block matrix", "why_tests_cant": "needs a non-symmetric block, absent from the tests", "anchors": ["include/blockmatrix.hpp: BlockMatrix::Transpose"]}
{"id": "C41", "title": "BlockOperator acts as the block matrix of its operators", "statement": "BlockOperator::Mult(x,y) leaves block I of y equal to the sum over set blocks (I,J) of Op(I,J) x_J, zero if none; MultAT likewise with adjoints; independent of earlier calls (the internal work vectors carry no state between calls).", "quantifier": "every layout, every family of operators, every history of calls", "why_tests_cant": "histories with reused workspaces", "anchors": ["src/blockoperator.cpp: BlockOperator::Mult, BlockOperator::MultAT"]}
{"id": "C42", "title": "PCG keeps the true residual, and stopping early means the residual is small", "statement": "In exact arithmetic with a linear operator, after every PCG iteration the internal residual equals b - A x; hence if Mult returns before the iteration limit, x satisfies <M r, r> < max(r0*rel_tol^2, abs_tol^2) for r = b - A x. If the initial guess already satisfies the test, x is returned unchanged.", "quantifier": "every linear operator and preconditioner, right-hand side, initial guess, tolerances and iteration limit", "why_tests_cant": "invariant over all iterations of all systems", "anchors": ["src/solvers.cpp: PCGSolver::Mult"]}
{"id": "C43", "title": "Krylov solvers respect the iteration limit they report", "statement": "PCG and MINRES apply the operator at most max_iter+1 times and GetNumIterations() never exceeds max_iter. (PCG always does one step and can report 2 with max_iter = 1; MINRES reports max_iter + 1 when it does not converge: exact counts proved, claim false.)", "quantifier": "every operator, tolerance and max_iter", "why_tests_cant": "limit cases depend on the run, not on fixed inputs", "anchors": ["src/solvers.cpp: PCGSolver::Mult, MINRESSolver::Mult, PMINRESSolver::Mult", "include/solvers.hpp: GetNumIterations"]}
{"id": "C44", "title": "CG has the orthogonality and finite-termination property", "statement": "In exact arithmetic for symmetric positive definite A (and M), the residuals produced by PCG are pairwise M-orthogonal and the directions pairwise A-orthogonal, so an n-dimensional system is solved exactly within n iterations. (Mult does max_iter - 1 passes, so max_iter must be at least n + 1: with max_iter = n, as in the project's own test, the result need not be the solution.)", "quantifier": "every SPD operator, right-hand side and initial guess", "why_tests_cant": "universally quantified over operators; induction over iterations", "anchors": ["src/solvers.cpp: PCGSolver::Mult"]}
{"id": "C45", "title": "PCG reports operators that are not positive definite", "statement": "PCG throws when a search direction has non-positive curvature. (The check compares with -1e12, so moderately negative curvature is accepted silently: claim false.)", "quantifier": "every operator", "why_tests_cant": "needs an indefinite operator of arbitrary scale", "anchors": ["src/solvers.cpp: PCGSolver::Mult, linalgcpp_verify"]}
{"id": "C46", "title": "MINRES started at the exact solution returns it", "statement": "If A x = b for the initial guess then MINRES returns x unchanged without error. (The code divides by the zero residual norm: claim false.)", "quantifier": "every operator with exact initial guess", "why_tests_cant": "boundary case for every operator", "anchors": ["src/solvers.cpp: MINRESSolver::Mult, PMINRESSolver::Mult"]}
{"id": "C47", "title": "Example LU factorisation and triangular solves are correct", "statement": "lu_decomp returns unit lower triangular L and upper triangular U with L U = A whenever no zero pivot occurs, and solve_lu(A, b) then returns x with A x = b (exact arithmetic).", "quantifier": "every square matrix with non-zero pivots and every b", "why_tests_cant": "all sizes", "anchors": ["examples/dense/dense_lu.cpp: lu_decomp, forward_elim, back_solve, solve_lu"]}
{"id": "C48", "title": "Binary vector files round-trip, and truncated files are not silently accepted", "statement": "ReadBinaryVect(WriteBinary(v)) = v for every vector. A file cut short at any byte is detected. (The reader checks nothing: a truncated file yields a vector whose missing bytes are zero: second sentence false.)", "quantifier": "every vector and every truncation point", "why_tests_cant": "all lengths, all crash points", "anchors": ["include/parser.hpp: WriteBinary(const std::vector<T>&, ...), ReadBinaryVect"]}
{"id": "C49", "title": "Binary matrix files round-trip", "statement": "ReadBinaryMat(WriteBinary(A)) returns identical shape, indptr, indices and data for every well-formed matrix.", "quantifier": "every well-formed matrix", "why_tests_cant": "all sizes", "anchors": ["include/parser.hpp: WriteBinary(const SparseMatrix<T>&, ...), ReadBinaryMat"]}
{"id": "C50", "title": "Text vector files round-trip", "statement": "ReadText(WriteText(v)) = v for every integer vector, and for any value type whose printed form parses back to the same value.", "quantifier": "every vector", "why_tests_cant": "all lengths and all values", "anchors": ["include/parser.hpp: ReadText, WriteText"]}
{"id": "C51", "title": "CSR text files round-trip", "statement": "ReadCSR(WriteCSR(A)) returns identical shape and arrays for every well-formed integer matrix.", "quantifier": "every well-formed matrix", "why_tests_cant": "all sizes", "anchors": ["include/parser.hpp: ReadCSR, WriteCSR"]}
{"id": "C52", "title": "Matrix Market files round-trip", "statement": "ReadMTX(WriteMTX(A)) represents the same matrix with the same shape for every well-formed integer matrix (any value type whose printed form parses back), with 1-based indices on disk. ReadMTX sums the values listed at each position of any file in the format, mirrors them if a comment line contains 'symmetric', and rejects positions outside the declared size.", "quantifier": "every well-formed matrix", "why_tests_cant": "all sizes and patterns", "anchors": ["include/parser.hpp: ReadMTX, WriteMTX"]}
{"id": "C53", "title": "Coordinate and adjacency list files round-trip", "statement": "ReadCooList(WriteCooList(A)) and ReadAdjList(WriteAdjList(A)) represent the same entries (pattern) as A. (The files carry no shape, so trailing empty rows/columns are lost and an empty matrix reads back as 1x1: equality of shape false in general.)", "quantifier": "every well-formed integer matrix", "why_tests_cant": "trailing empty rows/columns", "anchors": ["include/parser.hpp: ReadCooList, WriteCooList, ReadAdjList, WriteAdjList"]}
{"id": "C54", "title": "Boolean tables round-trip", "statement": "ReadTable(WriteTable(A)) has the same rows (as column lists in order, empty rows included) as A with all values 1. (If no row has an entry the reader dereferences the end of an empty range: undefined.)", "quantifier": "every well-formed matrix", "why_tests_cant": "all patterns, empty rows", "anchors": ["include/parser.hpp: ReadTable, WriteTable"]}
{"id": "C55", "title": "ReadGraphList builds a graph Laplacian", "statement": "For every list of vertex pairs the matrix read is symmetric, has zero row sums and non-positive off-diagonal entries, and -A(i,j) counts the lines \"i j\" with i < j. (Lines with i > j are ignored.)", "quantifier": "every edge list", "why_tests_cant": "all edge lists", "anchors": ["include/parser.hpp: ReadGraphList"]}
{"id": "C56", "title": "Symmetric readers return symmetric matrices", "statement": "ReadAdjList/ReadCooList with symmetric = true, and ReadMTX on a file declared symmetric, return a matrix equal to its transpose.", "quantifier": "every input file", "why_tests_cant": "all files", "anchors": ["include/parser.hpp: ReadAdjList, ReadCooList, ReadMTX"]}
{"id": "C57", "title": "ArgParser assigns each flag its own value", "statement": "For every argv of the documented form, each flag is associated with the following argument iff that argument does not start with \"--\", the first occurrence wins, and IsGood() is false iff some flag occurs twice, some flag was parsed twice or --help was given.", "quantifier": "every argv and every sequence of Parse calls", "why_tests_cant": "all argument lists and histories of Parse calls", "anchors": ["src/argparser.cpp: ArgParser::ArgParser", "include/argparser.hpp: Parse, IsGood"]}
{"id": "C58", "title": "Timer intervals add up", "statement": "For every sequence of clicks, TotalTime() equals the sum of all timer[i], is 0 with fewer than two clicks, and is non-negative for a monotone clock; timer[i] is rejected out of range.", "quantifier": "every sequence of clicks", "why_tests_cant": "all histories", "anchors": ["src/timer.cpp: Click, TotalTime, operator[]"]}
{"id": "C59", "title": "EigenSolver selects a valid number of eigenvectors", "statement": "For a square matrix with at least one row and max_evect at most the dimension, the number of eigenvectors returned is at least 1, at most max(1, max_evect) (at most the dimension if max_evect is negative), every one after the first has an eigenvalue within rel_tol times the largest one, and the next eigenvalue, if another vector was allowed, does not. With max_evect larger than the dimension the selection loop can read past the end of the eigenvalues.", "quantifier": "every spectrum, tolerance and max_evect", "why_tests_cant": "boundary depends on the spectrum", "anchors": ["src/eigensolver.cpp: EigenSolver::Solve"]}
{"id": "C60", "title": "EigenSolver workspaces are always large enough", "statement": "For every sequence of Solve calls with square matrices of any sizes and max_evect at most the dimension, each LAPACK routine receives arrays at least as long as it requires, so Solve succeeds. There is no check that the matrix is square: a rectangular one makes LAPACK access memory out of bounds.", "quantifier": "every history of matrix sizes", "why_tests_cant": "histories of growing and shrinking sizes", "anchors": ["src/eigensolver.cpp: AllocateWorkspace, Solve"]}
{"id": "C61", "title": "RemoveEmpty compresses partition labels", "statement": "RemoveEmpty(partition) relabels to exactly 0..k-1 (k the number of distinct labels), preserving equality and order of labels; an empty partition fires the assertion, a negative label never succeeds.", "quantifier": "every partition vector with labels 0..n", "why_tests_cant": "all label vectors", "anchors": ["modules/partition/include/partition.hpp: RemoveEmpty"]}
{"id": "C62", "title": "Partition adjacency drops the diagonal only", "statement": "MakeAdjacencyInfo of a square matrix with nnz >= rows - 1 produces the CSR adjacency of exactly the off-diagonal stored entries, in order, with weight 1 or |value| (converted to the index type). With nnz <= rows - 2 the number of edges to reserve is computed as a negative number and the call throws.", "quantifier": "every well-formed matrix", "why_tests_cant": "all patterns", "anchors": ["modules/partition/include/partition.hpp: MakeAdjacencyInfo"]}
{"id": "C63", "title": "GenerateOffsets partitions the global range", "statement": "For every number of processes and every local size, the returned [start, end) ranges are contiguous, disjoint, in rank order, cover [0, total), have the local size as length, and every process gets the same total.", "quantifier": "every number of processes and sizes", "why_tests_cant": "all process counts", "anchors": ["modules/parlinalgcpp/src/parutilities.cpp: GenerateOffsets"]}
{"id": "C64", "title": "SortColumnMap sorts the map and keeps every entry's global column", "statement": "After SortColumnMap the column map is ascending and each stored entry (i, c, v) has the same global column col_map[c] as before.", "quantifier": "every column map and entry list, every outcome of std::sort", "why_tests_cant": "all permutations", "anchors": ["modules/parlinalgcpp/src/parutilities.cpp: SortColumnMap"]}
{"id": "C65", "title": "ParAdd computes alpha*A + beta*B", "statement": "On every process, the result of ParAdd(alpha, A, beta, B) represents alpha*A + beta*B in global numbering, and ParSub(A,B) represents A - B. (First entries of an off-diagonal column are added unscaled: claim false unless both scalars are 1.)", "quantifier": "every pair of matrices with equal layout and all scalars", "why_tests_cant": "only matrices with off-process columns and scalars other than 1 show it", "anchors": ["modules/parlinalgcpp/src/parutilities.cpp: ParAdd, ParSub"]}
{"id": "C66", "title": "ParSplit distributes the permuted matrix", "statement": "The local blocks over all processes together represent P A P^T for the permutation induced by the partition. (The diagonal block is rebuilt from its upper triangle, so this needs a symmetric A.)", "quantifier": "every matrix and every assignment of vertices to processes", "why_tests_cant": "all partitions", "anchors": ["modules/parlinalgcpp/src/parutilities.cpp: ParSplit"]}
{"id": "C67", "title": "Example QR factorisation and least-squares solve are correct", "statement": "qr_decomp returns Q with orthonormal columns and upper triangular R with a diagonal without zeros and Q R = A exactly when the columns of A are linearly independent (otherwise the assertion against division by zero fires), and solve_qr(Q, R, b) then returns x whose residual b - A x is orthogonal to every column of A (exact arithmetic).", "quantifier": "every well-formed dense matrix, right-hand side, and square root function with sqrt(s)^2 = s on s >= 0", "why_tests_cant": "the examples print residuals for random square matrices only; rank deficiency and m != n are never exercised", "anchors": ["examples/dense/dense_qr.cpp: qr_decomp, solve_qr, back_solve"]}
{"id": "C68", "title": "EigenSolver returns eigenpairs", "statement": "If the LAPACK routines do what they document, Solve of a symmetric matrix returns all its eigenvalues in ascending order and orthonormal eigenvectors belonging to the first of them, whatever was solved before with the same EigenSolver. The overloads for a SparseMatrix do the same for the matrix it represents.", "quantifier": "every symmetric matrix, tolerance, max_evect at most the dimension, history of earlier calls, and every LAPACK meeting its contract", "why_tests_cant": "tests check two fixed matrices with a fresh solver", "anchors": ["src/eigensolver.cpp: EigenSolver::Solve"]}
{"id": "C69", "title": "Dense element-wise updates", "statement": "For dense matrices of equal size += and -= add and subtract entry by entry; *= and /= with a scalar multiply and divide every entry; = fills; different sizes and a zero divisor fire the assertion.", "quantifier": "every well-formed dense matrix and scalar", "why_tests_cant": "all sizes and the rejection of every mismatch", "anchors": ["include/densematrix.hpp: operator+=, operator-=, operator*=, operator/=, operator=", "src/densematrix.cpp"]}
{"id": "C70", "title": "Dense row and column scaling", "statement": "ScaleRows/ScaleCols multiply entry (i,j) by values[i]/values[j], InverseScaleRows/InverseScaleCols divide, scaling and inverse scaling undo each other; a zero value or a wrong length fires the assertion.", "quantifier": "every well-formed dense matrix and every vector of scales", "why_tests_cant": "all sizes, including rectangular ones where mixing up rows and columns shows", "anchors": ["src/densematrix.cpp: ScaleRows, ScaleCols, InverseScaleRows, InverseScaleCols"]}
{"id": "C71", "title": "Dense ranges, selections, block writes and reductions", "statement": "GetRow/GetCol of a range and of an index list return exactly the selected entries; SetRow/SetCol with a block change exactly the addressed rows or columns; GetDiag returns the diagonal; Max, Min are attained bounds; Sum is the sum of all entries.", "quantifier": "every well-formed dense matrix and every admissible range or list", "why_tests_cant": "all ranges including the borders", "anchors": ["src/densematrix.cpp: GetRow, GetCol, SetRow, SetCol, GetDiag, Max, Min, Sum"]}
{"id": "C72", "title": "Sparse row access", "statement": "RowSize, GetIndices and GetData describe exactly the stored entries of the row, in order; the row sizes add up to nnz; a row outside the range fires the assertion.", "quantifier": "every well-formed sparse matrix and row", "why_tests_cant": "all patterns, including empty first and last rows", "anchors": ["include/sparsematrix.hpp: RowSize, GetIndices, GetData, nnz"]}
{"id": "C73", "title": "Partition returns non-empty parts numbered consecutively", "statement": "Partition of a square matrix (nnz >= rows - 1) into 1 <= num_parts <= rows parts returns one label per row, and the labels used are exactly 0..k-1 with 1 <= k <= num_parts, provided METIS gives every vertex one of the parts asked for; other numbers of parts and rectangular matrices fire an assertion.", "quantifier": "every well-formed matrix, number of parts and METIS meeting its contract", "why_tests_cant": "METIS leaves parts empty only for special graphs", "anchors": ["modules/partition/include/partition.hpp: Partition"]}
{"id": "C74", "title": "ParMatrix construction accepts exactly well-formed shares", "statement": "The constructor with starts, blocks and column map accepts exactly: starts [first, last, total] in order, blocks of matching size (a 0x0 off-diagonal block standing for none), a strictly ascending column map inside the global range and outside the own columns; the constructed matrix represents the diagonal block on the own columns and the other block at the mapped columns.", "quantifier": "every list of starts, every pair of blocks, every column map", "why_tests_cant": "the checks run in debug builds only and the tests construct valid matrices", "anchors": ["modules/parlinalgcpp/src/parmatrix.cpp: ParMatrix::ParMatrix, Init", "modules/parlinalgcpp/src/paroperator.cpp: ParOperator"]}
{"id": "C75", "title": "The local product of distributed matrices combines own and received rows", "statement": "ParMatrix::Mult on one process, with any received rows of B, returns a well-formed share whose coefficient (i, c) is the sum over own columns k of A.diag(i,k) * B(k,c) plus the sum over the column map of A.offd(i,k) * received(k,c); no access is out of range, the two passes agree, and the column map of the result is strictly ascending; mismatched sizes fire the assertion.", "quantifier": "every pair of well-formed shares, every matrix of received rows, every outcome of the sort, every reordering of the diagonal blocks", "why_tests_cant": "needs several MPI processes; duplicates, empty rows and square/rectangular shapes take different branches", "anchors": ["modules/parlinalgcpp/src/hypre_ops.cpp: RowSizes, ParMatrix::Mult(const ParMatrix&)"]}
{"id": "C76", "title": "The distributed product is the matrix product", "statement": "ParMatrix::Mult on all processes returns a matrix distributed like the rows of A and the columns of B, whose global coefficients are those of the matrix product A B.", "quantifier": "every number of processes, every distribution of rows and columns (including empty shares), all well-formed matrices with fitting distributions", "why_tests_cant": "tests run on a fixed small number of processes", "anchors": ["modules/parlinalgcpp/src/hypre_ops.cpp: RowSizes, ParMatrix::Mult(const ParMatrix&)"]}
{"id": "C77", "title": "The distributed transpose is the transpose", "statement": "ParMatrix::Transpose on all processes returns a matrix distributed with the roles of rows and columns exchanged, whose global coefficient (c, g) is the coefficient (g, c) of the original; every message fits the range it is received into, no access is out of range, and the column maps of the result are strictly ascending.", "quantifier": "every number of processes, every distribution of rows and columns (including empty shares), every communication package that fits the matrix, every outcome of the sort", "why_tests_cant": "needs several MPI processes; the exchange depends on how the column maps of all processes overlap", "anchors": ["modules/parlinalgcpp/src/hypre_ops.cpp: ParMatrix::Transpose"]}
{"id": "C78", "title": "The distributed triple product is the triple product", "statement": "RAP(R, A, P) on all processes returns a matrix distributed like the columns of R and of P, whose global coefficients are those of transpose(R) A P.", "quantifier": "every number of processes, every distribution, all well-formed matrices with fitting distributions", "why_tests_cant": "tests run on a fixed small number of processes", "anchors": ["modules/parlinalgcpp/src/parutilities.cpp: RAP", "modules/parlinalgcpp/src/hypre_ops.cpp: ParMatrix::Transpose, ParMatrix::Mult(const ParMatrix&)"]}
{"id": "C79", "title": "Invert returns the inverse or fails", "statement": "Invert() of a square matrix succeeds exactly when the matrix has an inverse and then holds a two-sided inverse of the same size; a singular matrix and a matrix that is not square trip an assertion. Invert(inv) gives the same result and leaves the matrix alone.", "quantifier": "every square matrix, including 0 x 0, over any commutative ring; every LAPACK that meets its documentation", "why_tests_cant": "singular matrices and workspace sizes are not exercised; a finite set of matrices says nothing about the assertion on info", "anchors": ["src/densematrix.cpp: DenseMatrix::Invert"]}
{"id": "C80", "title": "SVD returns singular values and left singular vectors", "statement": "SVD() returns the min(rows, cols) singular values in descending order and overwrites the first min(rows, cols) columns by orthonormal left singular vectors; it trips its assertion exactly when LAPACK reports that it did not converge. The vectors are eigenvectors of A A^T for the squares of the values, whose sum is the sum of the squares of the entries. SVD(U) leaves the matrix alone.", "quantifier": "all shapes, including empty ones; every LAPACK that meets its documentation", "why_tests_cant": "needs wide, tall and empty shapes and non-convergence of LAPACK, which a test cannot provoke", "anchors": ["src/densematrix.cpp: DenseMatrix::SVD"]}
{"id": "C81", "title": "QR returns orthonormal columns that span the matrix", "statement": "QR() overwrites the matrix by a matrix of the same shape with orthonormal columns Q such that Q Q^T A = A; no access is out of range.", "quantifier": "all shapes with at least as many rows as columns (for more columns than rows the code passes LAPACK an array that is too short, which is proved); every LAPACK that meets its documentation", "why_tests_cant": "an array that is too short for LAPACK is silent heap corruption in a test", "anchors": ["src/densematrix.cpp: DenseMatrix::QR"]}
{"id": "C82", "title": "MINRES returns the smallest residual over the Krylov space", "statement": "In exact arithmetic for symmetric A, the vector MINRES returns after k passes lies in x + span(r, A r, .., A^(k-1) r) and its residual is the smallest there; the number eta it compares with the tolerance is, up to sign, the norm of the true residual. If A x = b has a solution (A may be singular), the start is not exact and a tolerance is not zero, MINRES finishes without error, and with max_iter >= n it stops within n passes with a residual below the tolerance. For real numbers the residual after k passes is at most max |p(t)| times the first, over the eigenvalues t of A, for every polynomial p of degree k with p(0) = 1; hence at most 2((sqrt hi - sqrt lo)/(sqrt hi + sqrt lo))^k times if the eigenvalues other than 0 are between lo and hi, and 2((hi - lo)/(hi + lo))^(k/2) times if they are so up to the sign. If that factor is below the square of the relative tolerance and max_iter >= k, MINRES stops by the tolerance and reports at most k iterations.", "quantifier": "every symmetric operator, right-hand side, initial guess, tolerances and iteration limit", "why_tests_cant": "optimality is a statement over all vectors of a subspace, and the recurrence is an induction over passes", "anchors": ["src/solvers.cpp: MINRESSolver::Mult"]}
{"id": "C83", "title": "PMINRES returns the smallest preconditioned residual over the Krylov space", "statement": "In exact arithmetic for symmetric A and symmetric positive definite M, the vector PMINRES returns after k passes minimises r . M r over x + span(M r, M A M r, .., (M A)^(k-1) M r), eta squared is that minimum, and PMINRES finishes within n passes for every system that has a solution. The bounds by polynomials, the rates and the bound of the number of iterations of MINRES hold in the norm of M with the eigenvalues of A M.", "quantifier": "every symmetric operator, positive definite preconditioner, right-hand side, initial guess, tolerances and iteration limit", "why_tests_cant": "optimality is a statement over all vectors of a subspace, and the recurrence is an induction over passes", "anchors": ["src/solvers.cpp: PMINRESSolver::Mult"]}
{"id": "C84", "title": "Solver constructors check sizes, and the one-call solvers solve", "statement": "PCGSolver, MINRESSolver and PMINRESSolver accept exactly a non-negative iteration limit, a square operator and a preconditioner of its size; SetOperator accepts exactly operators of the same size. CG, PCG, MINRES and PMINRES called as functions, with a given or a random initial guess, return a vector whose true residual passes the documented tolerance test (MINRES and PMINRES: unless the start is an exact solution).", "quantifier": "every (semi)definite or indefinite operator as required by the method, every random start, tolerances and limits above the dimension", "why_tests_cant": "the random start differs in every run; rejection must hold for all sizes", "anchors": ["src/solvers.cpp: Solver::Solver, SetOperator, PCGSolver::PCGSolver, MINRESSolver::MINRESSolver, PMINRESSolver::PMINRESSolver, CG, PCG, MINRES, PMINRES"]}
{"id": "C85", "title": "A distributed vector is built from any partition of its elements", "statement": "ParVector(comm, vect, part) and ParVector(comm, val, part) with part = [start, end, total] and 0 <= start <= end <= total hold the given local elements and report the total as global size; every process of a valid partition can build its share.", "quantifier": "every partition, values and number of processes", "why_tests_cant": "partitions with empty ranges and arrays of the wrong length are unbounded in number", "anchors": ["modules/parlinalgcpp/src/parvector.cpp: ParVector::ParVector, Init"]}
{"id": "C86", "title": "Distributed inner product, norm and sum equal those of the whole vector", "statement": "ParMult and ParL2Norm of vectors that are not ParVectors, and ParVector::Mult, L2Norm and GlobalSum return on every process the value computed from the concatenated vector; SubAvg leaves a vector whose global sum is 0. Shares of different sizes are rejected.", "quantifier": "every distribution over any number of processes and all values", "why_tests_cant": "holds for every number of processes and every distribution", "anchors": ["modules/parlinalgcpp/src/parvector.cpp: ParMult, ParL2Norm, Mult, L2Norm, GlobalSum, SubAvg"]}
{"id": "C87", "title": "ParMatrix times vector equals the global product", "statement": "ParMatrix::Mult and MultAT, on views and on ParVectors, give the shares of the global matrix (or its transpose) times the concatenated vector; wrong local sizes are rejected; y . A x = A^T y . x; the Transpose acts as MultAT and the product of two matrices acts as the two products in turn.", "quantifier": "every distributed matrix and vector, any number of processes", "why_tests_cant": "holds for every distribution, including processes without rows", "anchors": ["modules/parlinalgcpp/src/parmatrix.cpp: ParMatrix::Mult, MultAT"]}
{"id": "C88", "title": "In-place updates of a ParMatrix update the global matrix", "statement": "operator*=, operator-, ScaleRows, InverseScaleRows, EliminateRow, AddDiag, operator= and MaxNorm act on the global matrix as their names say: each coefficient is multiplied, negated, scaled by its row, or eliminated; AddDiag changes only stored diagonal positions and rejects non-square shares; MaxNorm is the same on all processes and is the largest local value.", "quantifier": "every distributed matrix, values, diagonal and row", "why_tests_cant": "holds for all sparsity patterns and distributions", "anchors": ["modules/parlinalgcpp/src/parmatrix.cpp: operator*=, operator-, ScaleRows, InverseScaleRows, EliminateRow, AddDiag, operator=, MaxNorm"]}
{"id": "C89", "title": "The row norms of the l1 smoothers", "statement": "hypre_ParCSRComputeL1Norms returns for every row the norm its option names, negated where the diagonal is negative, and sets the error flag exactly when a norm is 0. For a symmetric matrix with non-negative diagonal the norms of option 1 bound the matrix: x . A x <= x . D x for every vector.", "quantifier": "every distributed matrix whose rows each store an own column, every option", "why_tests_cant": "the bound is a statement about all vectors", "anchors": ["modules/parlinalgcpp/src/hypre_ops.cpp: hypre_ParCSRComputeL1Norms", "modules/parlinalgcpp/src/parsmoother.cpp: ParSmoother::ParSmoother"]}
{"id": "C90", "title": "Vectors behave as values", "statement": "Any program that constructs, copies, moves, resizes, assigns, swaps, writes and destroys Vectors does what the same program on plain lists of numbers does: it fails exactly when that one fails and otherwise every vector has the listed elements. No two vectors share storage, whatever the allocator does.", "quantifier": "every sequence of operations, element values and growth policy of std::vector", "why_tests_cant": "aliasing and lifetime errors show only on particular sequences of operations", "anchors": ["include/vector.hpp: Vector constructors, operator=, swap, SetSize", "include/vectorview.hpp: operator=, SetData"]}
{"id": "C91", "title": "A view follows its vector until the vector's storage moves", "statement": "A view taken of a vector shows the vector's present elements, and writes through it change that vector and no other, until the vector is resized, assigned or destroyed; after a move it shows the new owner's elements; after growth it dangles. Assigning a non-constant view to a vector requires equal sizes, a constant view resizes.", "quantifier": "every reachable program state, position and length", "why_tests_cant": "needs all interleavings of writes and views", "anchors": ["include/vector.hpp: Vector::operator=", "include/vectorview.hpp: VectorView, GetSubVector"]}
{"id": "C92", "title": "The sparse direct solver solves the system", "statement": "For a square invertible SparseMatrix that stores no entry twice, in any order of entries, SparseSolver is built and Mult returns the solution of A x = b, MultAT that of the transposed system. Matrices that are not square, or that store entries and are singular or store one twice, are rejected; so are vectors of the wrong size.", "quantifier": "every matrix, right-hand side and initial content of the output", "why_tests_cant": "infinitely many matrices; the call to UMFPACK is not observable", "anchors": ["modules/sparsesolver/src/sparsesolve.cpp: SparseSolver::SparseSolver, Init, Mult, MultAT"]}
{"id": "C93", "title": "Sparse solvers behave as values", "statement": "A program that builds, copies, assigns, swaps, destroys and applies SparseSolvers gives the results of the same program on the matrices, and every factorisation is freed once and owned by one solver.", "quantifier": "every sequence of operations", "why_tests_cant": "double frees and uses of freed factorisations need particular sequences", "anchors": ["modules/sparsesolver/src/sparsesolve.cpp: copy and move constructors, operator=, swap, destructor"]}
{"id": "C94", "title": "Power iteration returns a Rayleigh quotient and finds the largest eigenvalue", "statement": "PowerIterate returns the Rayleigh quotient of a power of the operator applied to the start, for the first pass that meets the tolerance or the last pass; the result lies between the bounds of the quadratic form. For a symmetric positive semidefinite operator more passes never give less, and with tolerance zero the results tend to the largest eigenvalue when the start is not orthogonal to its eigenvector.", "quantifier": "every operator that acts as a square matrix, every start, number of passes and tolerance", "why_tests_cant": "infinitely many operators; convergence is a limit", "anchors": ["examples/sparse/sparse_basics.cpp: PowerIterate"]}
{"id": "C95", "title": "AdjToLaplacian builds the Laplacian of a graph", "statement": "For a matrix that stores its diagonal and no entry twice, AdjToLaplacian keeps the stored positions, puts -1 beside the diagonal and the number of neighbours on it. Rows sum to zero; for an undirected graph the result is symmetric, positive semidefinite, bounded by twice the largest degree, and vanishes exactly on functions constant along edges. A row without a stored diagonal fails an assertion.", "quantifier": "every well-formed matrix", "why_tests_cant": "infinitely many graphs", "anchors": ["examples/sparse/sparse_basics.cpp: AdjToLaplacian"]}
{"id": "C96", "title": "The QR eigenvalue iteration preserves and reveals the spectrum", "statement": "QR_eig keeps the factorisation: the accumulated Q is orthogonal and Q T Q^t is the input after every number of passes, so T stays similar to it, and a symmetric input gives symmetric T. For a symmetric positive definite input the off-diagonal entries of T tend to zero, and T(0,0) never decreases and tends to the largest eigenvalue when the first coordinate vector meets its eigenvector. A singular input fails an assertion, and a symmetric matrix with eigenvalues of equal size and opposite sign never becomes diagonal. symmetrize copies one triangle onto the other.", "quantifier": "every square dense matrix, every number of passes", "why_tests_cant": "convergence is a limit; infinitely many matrices", "anchors": ["examples/dense/dense_qr.cpp: QR_eig", "examples/include/ex_utilities.hpp: symmetrize"]}
{"id": "C97", "title": "ParVector objects are independent values and hypre sees each one", "statement": "However ParVector objects are constructed, copied, moved, assigned, swapped, written to and destroyed, each keeps its own value; the hypre vector inside an object always has the communicator, partition, global size and entries of that object; nothing is used or freed after it was freed, and when all objects are destroyed nothing is left allocated. Every vector can be copied, also an empty one, and resizing keeps the hypre vector in step.", "quantifier": "every program of these operations, of any length, on any number of objects", "why_tests_cant": "ownership errors depend on the order of operations; there are infinitely many programs", "anchors": ["modules/parlinalgcpp/src/parvector.cpp: ParVector(const ParVector&), swap, HypreCreate, HypreDestroy", "include/vector.hpp: Vector::SetSize"]}
{"id": "C98", "title": "ParMatrix objects are independent values and hypre sees each one", "statement": "However ParMatrix objects are constructed, copied, moved, assigned, swapped, scaled and destroyed, each keeps its own matrix; the hypre matrix inside an object always has the communicator, starts, column map and blocks of that object; nothing is used or freed after it was freed, and when all objects are destroyed nothing is left allocated. A copy can be multiplied wherever its source can.", "quantifier": "every program of these operations, of any length, on any number of objects", "why_tests_cant": "ownership errors depend on the order of operations; there are infinitely many programs", "anchors": ["modules/parlinalgcpp/src/parmatrix.cpp: ParMatrix(const ParMatrix&), swap, HypreCreate, HypreDestroy", "modules/parlinalgcpp/src/paroperator.cpp: ParOperator(const ParOperator&), InitVector, DestroyVector"]}
{"id": "C99", "title": "Parallel solvers can be copied, moved and destroyed like values", "statement": "However solvers of one class (ParSolver, BoomerAMG, ParaSails, ParCG, ParDiagScale, ParSmoother) are constructed, copied, moved, assigned, swapped, applied and destroyed, each that is not empty solves with its own matrix and with the settings it was constructed with, every one can be destroyed, nothing is used or freed after it was freed, and when all are destroyed nothing is left allocated.", "quantifier": "every program of these operations, of any length, on any number of objects of one class", "why_tests_cant": "ownership errors depend on the order of operations; there are infinitely many programs", "anchors": ["modules/parlinalgcpp/src/parsolvers.cpp: ParSolver(const ParSolver&), ParSolver(ParSolver&&), ParaSails(const ParaSails&), ParCG(const ParCG&)", "modules/parlinalgcpp/src/parsmoother.cpp: ParSmoother(ParSmoother&&), ParSmoother(const ParSmoother&)"]}
{"id": "C100", "title": "ParCG applies the preconditioner it is given", "statement": "A ParCG constructed with a preconditioner M, or told to scale by the diagonal, applies just that in every pass; this goes on to hold after M is moved, and copies of the ParCG do the same.", "quantifier": "all matrices, settings, preconditioners of every class and states of memory", "why_tests_cant": "with a wrong preconditioner conjugate gradients may still converge on the systems of a test", "anchors": ["modules/parlinalgcpp/src/parsolvers.cpp: ParCG(ParMatrix, const ParSolver&, ...), EnableDiagScaling, ParCG(const ParCG&)"]}
{"id": "C101", "title": "Sequential matrices, block matrices and block vectors behave as values", "statement": "However SparseMatrix, DenseMatrix, CooMatrix, LilMatrix, BlockMatrix, BlockVector and BlockOperator objects are constructed, copied, moved, assigned, swapped, changed and destroyed, each is a value of its own: a copy is equal and independent, a move hands the value on and leaves an empty object that can still be used.", "quantifier": "every program of these operations, of any length, on any number of objects of one class, whatever the constructors and changes are", "why_tests_cant": "aliasing and moved-from states depend on the order of operations; there are infinitely many programs", "anchors": ["include/sparsematrix.hpp: SparseMatrix(const SparseMatrix&), swap", "src/densematrix.cpp: DenseMatrix(DenseMatrix&&), swap", "include/coomatrix.hpp: CooMatrix(CooMatrix&&), swap", "include/lilmatrix.hpp: LilMatrix(LilMatrix&&), swap", "include/blockmatrix.hpp: BlockMatrix(BlockMatrix&&), Transpose", "include/blockvector.hpp: BlockVector, GetBlock", "src/blockoperator.cpp: BlockOperator(const BlockOperator&), swap"]}
{"id": "C102", "title": "Solvers refer to the operators they were given; copies and moves keep what they refer to", "statement": "However PCG, MINRES and PMINRES solvers are constructed, copied, moved, assigned, swapped, configured, used and destroyed, interleaved with making, changing and destroying operators, each solver keeps its own settings and its own choice of operators; Mult solves with those operators as they are at the time of the call, whatever was solved before; it stops at a check if the solver has no operator, and needs the operator to be still alive.", "quantifier": "every program of these operations, of any length, on any number of solvers and operators; for MINRES and PMINRES those that do not resize an operator in place", "why_tests_cant": "whether a work vector or pointer of an earlier use leaks into a later one depends on the whole history; there are infinitely many programs", "anchors": ["src/solvers.cpp: Solver(), swap, SetOperator, PCGSolver::Mult, MINRESSolver::Mult, PMINRESSolver::Mult, PCGSolver(PCGSolver&&)", "include/solvers.hpp: PCGSolver() = default, SetPreconditioner"]}
{"id": "C103", "title": "Products and sums are added up in a fixed order", "statement": "Each element of Mult, MultAT, the product with a dense or a sparse matrix, Sum and InnerProduct is the sum of its terms in the order in which they are stored, so the result is determined to the last bit whatever the addition and multiplication of the scalar type do; MultAT gives the same bits as Mult with the transpose.", "quantifier": "every matrix and vector over every scalar type, no law of arithmetic assumed", "why_tests_cant": "in floating point different orders differ in the last bits; tests compare with tolerances and on few inputs", "anchors": ["include/sparsematrix.hpp: Mult, MultAT, Transpose", "include/densematrix.hpp: Mult, MultAT", "include/coomatrix.hpp: Mult", "include/lilmatrix.hpp: Mult", "include/vectorview.hpp: Sum, InnerProduct"]}
{"id": "C104", "title": "Rounding errors of products, sums and norms are bounded", "statement": "If every addition and multiplication is rounded with relative error at most u, an element of Mult, MultAT, of a sparse product, Sum or InnerProduct that has k terms is off by at most (1+u)^k - 1 times the sum of the absolute values of its terms; Mult is the exact product with a matrix whose entries are off by at most that factor; L2Norm is accurate relative to itself.", "quantifier": "every rounding with bounded relative error (so no overflow or underflow), every matrix and vector", "why_tests_cant": "the bound has to hold for all inputs, the worst case is never hit by tests", "anchors": ["include/sparsematrix.hpp: Mult, MultAT", "include/densematrix.hpp: Mult, MultAT", "include/coomatrix.hpp: Mult", "include/lilmatrix.hpp: Mult", "include/vectorview.hpp: Sum, InnerProduct, L2Norm"]}
{"id": "C105", "title": "Rounding errors of the example LU solver are bounded", "statement": "If every operation is rounded with relative error at most u, the factors lu_decomp returns multiply to the matrix up to a small multiple of |L||U|, forward_elim and back_solve solve a system whose triangle is off by a small relative error in each entry, and solve_lu returns the exact solution of a system with a matrix off by at most (1+u)^(3n) - 1 times |L||U|.", "quantifier": "every rounding with bounded relative error, every square matrix for which no computed pivot is zero, every right hand side", "why_tests_cant": "the bound has to hold for all inputs; a wrong order of operations that loses accuracy still passes with tolerances", "anchors": ["examples/dense/dense_lu.cpp: lu_decomp, forward_elim, back_solve, solve_lu"]}
{"id": "C106", "title": "Products on views of one memory", "statement": "Mult and MultAT of every matrix class give the same result on views of one memory that share nothing as on separate vectors, and leave the rest of the memory alone. With the same view as argument and result: BlockOperator is right; SparseMatrix::Mult and DenseMatrix::MultAT use the new values of the elements already written, and give the product for every vector exactly if the part of the matrix (transpose) below the diagonal, times it, is that part; all the others return the zero vector.", "quantifier": "every well-formed matrix, every memory, all views; the statements on views that share nothing for any scalar operations", "why_tests_cant": "tests use separate vectors for the result; nothing in the signatures keeps the two apart", "anchors": ["include/sparsematrix.hpp: Mult, MultAT", "include/densematrix.hpp: Mult, MultAT", "include/coomatrix.hpp: Mult, MultAT", "include/lilmatrix.hpp: Mult, MultAT", "include/blockmatrix.hpp: Mult, MultAT", "src/blockoperator.cpp: Mult, MultAT"]}
{"id": "C107", "title": "Functions every operator inherits; sums and multiples of vectors", "statement": "If the virtual Mult (MultAT) of a class computes F, then so do the inherited forms: into a Vector of any size and contents, and into a new one; InnerProduct(x, y) is the sum of y_i F(x)_i and rejects a y of another size. Without an own MultAT all its forms throw. Negative sizes are rejected by every constructor. A.Mult(x, x) with one Vector is rejected if A is not square, and otherwise never compares sizes. x + y, x - y, x * a, a * x, x / a, a / x give what they say entry by entry and reject different sizes and a = 0; a / x divides by zero elements.", "quantifier": "every operator, function F, vector and scalar", "why_tests_cant": "tests call each form for one or two operators with vectors of the right sizes", "anchors": ["src/operator.cpp: Operator, Mult, MultAT, InnerProduct", "include/operator.hpp: MultAT, SumRows, SumCols", "include/vector.hpp: operator*, operator/, operator+, operator-"]}
{"id": "C108", "title": "Which sizes fit in an int", "statement": "With int arithmetic of finite range (overflow is undefined): a DenseMatrix can be built or resized exactly if rows*cols is an int, and then no element access overflows; ToDense is undefined for larger matrices; Transpose and CooMatrix::ToSparse never overflow if the numbers of entries, rows and columns fit; the sparse product is undefined exactly if the number of entries of the product does not fit, e.g. for a column times a row with 46341 entries each.", "quantifier": "every range of int, every well-formed matrix, all sizes", "why_tests_cant": "the sizes concerned need gigabytes; tests use small matrices", "anchors": ["src/densematrix.cpp: DenseMatrix, SetSize", "include/densematrix.hpp: operator()", "include/sparsematrix.hpp: ToDense, Transpose, Mult", "include/coomatrix.hpp: FindSize, ToSparse", "include/blockmatrix.hpp: Combine"]}
{"id": "C109", "title": "Operands of different element types", "statement": "If matrix, argument and result have different element types, Mult, MultAT and the sparse product convert to the result's type at every addition. With a double result the sums are exact (up to rounding of double, not modelled here); with an int result each element is wrong by less than the number of products in it and exact where these are whole, and no smaller bound holds. Mult(x) of a SparseMatrix<int> returns an int vector, so it differs from Mult(x, y) with a double y; the result depends on the order of the stored entries. CooMatrix::ToSparse<U> converts before it adds, LilMatrix::ToSparse<U> after, so they differ. Assigning or scaling by a double: the assertion val != 0 is made before the conversion, so an int matrix can be set to zero by a value that passes it.", "quantifier": "all element types given by their conversions, every well-formed matrix, all vectors", "why_tests_cant": "the tests only print the results of mixed products", "anchors": ["include/sparsematrix.hpp: Mult<U,V>, MultAT<U,V>, Mult<U>, MultAT<U>, Transpose<U>, operator*=, operator/=, operator=", "include/coomatrix.hpp: ToSparse<U>", "include/lilmatrix.hpp: ToSparse<U>", "include/vectorview.hpp: Add, Sub, Set"]}
{"id": "C110", "title": "What Print writes", "statement": "Print of SparseMatrix, CooMatrix, LilMatrix, BlockMatrix, ParMatrix, Vector and operator<< append exactly one line for each stored entry or element, in the order of storage, under the label, use up a width left on the stream, and leave its formatting state alone. Given the size (number of rows, number of blocks), the text determines the entries as far as their values look different; the size itself is not in the text. DenseMatrix::Print writes each number in fixed notation, off by at most half a unit of the last place, whatever the state of the stream; with at least one digit after the point the text determines the entries up to one unit of the last place, although numbers of eight or more characters run together; without digits after the point it does not. PrintDense shows for each position the value stored last.", "quantifier": "all matrices, labels, streams, widths, precisions and ways of writing numbers", "why_tests_cant": "the tests print and compare nothing", "anchors": ["include/sparsematrix.hpp: Print, PrintDense", "include/coomatrix.hpp: Print", "include/lilmatrix.hpp: Print", "include/blockmatrix.hpp: Print, PrintDense", "include/vectorview.hpp: Print, operator<<", "src/densematrix.cpp: Print", "modules/parlinalgcpp/src/parmatrix.cpp: Print"]}
{"id": "C111", "title": "What ArgParser shows", "statement": "After a command line and any number of calls of Parse, ShowHelp lists each flag that was asked for once, in increasing order, with the help text given last; ShowOptions lists each once, in increasing order, with the value that the argument had after the first request and the last help text, in columns wide enough for the longest flag and value; ShowErrors lists the errors in order and does nothing if there are none. ShowOptions does not change the parser, but leaves the stream adjusting to the left, so that a sparse matrix printed afterwards looks different.", "quantifier": "all command lines, all sequences of requests, all streams", "why_tests_cant": "the tests print and compare nothing", "anchors": ["src/argparser.cpp: ShowErrors, ShowHelp, ShowOptions", "include/argparser.hpp: Parse"]}
{"id": "C112", "title": "One object as argument and result", "statement": "What a call leaves behind when the object it writes is also the one it reads. Right in every case: D += D, D -= D. Right under a condition that is stated: D.Transpose(D) exactly for symmetric matrices, D.GetCol(0, end, D), D.GetRow(rows, D) when no row comes from above its new place, D.SetSubMatrix(part, D) when the part does not meet its source, ScaleRows/ScaleCols/InverseScaleRows/InverseScaleCols of a sparse matrix with itself when no factor is read after it was scaled (diagonal matrices always). Never right unless the true result is zero: A.Mult(D, D), A.MultAT(D, D), A.MultCT(D, D) and D.GetSubMatrix(rows, cols, D) clear D before they read it and give the zero matrix or stop at an assertion. In all other cases the exact result is given: where each value came from, or that an assertion fails.", "quantifier": "all matrices, vectors, index lists and parts", "why_tests_cant": "the tests never pass an object as its own result", "anchors": ["include/densematrix.hpp: Transpose, GetSubMatrix, GetRow, SetSubMatrix, SetRow, operator+=, operator-=", "src/densematrix.cpp", "include/sparsematrix.hpp: Mult, MultAT, MultCT, ScaleRows, ScaleCols, InverseScaleRows, InverseScaleCols", "include/vectorview.hpp: GetSubVector"]}
{"id": "C113", "title": "How many digits of a double survive a file", "statement": "What is read from a file written by WriteText, WriteCSR, WriteMTX (16 digits) or WriteCooList (6 digits): each value comes back as the double nearest to the decimal number with that many digits nearest to it, so the relative error is at most 10^(1-digits); the structure of the matrix and the length of the vector come back exactly. Values with at most that many significant decimal digits, in particular integers up to 2^53 (a million for WriteCooList), come back exactly. 17 digits would bring back every double. With 16 they do not: 0.1+0.2 and 0.3 have the same text; the largest double, infinities and NaN cannot be read back and what follows them is lost without an error. Writing again what was read gives the same text except perhaps next to a power of ten, and always from the second time on. Two sparse matrices of double that Print shows alike have the same places and values that agree to 6 digits. With p digits an exponent is written for numbers of at least 10^p or at most 0.00009 in absolute value and not for those between 0.0001 and 10^p - 1.", "quantifier": "all finite doubles up to 1e308 (all for 17 digits), all vectors and matrices of them", "why_tests_cant": "the tests write small integers only", "anchors": ["include/parser.hpp: WriteText, ReadText, WriteCSR, ReadCSR, WriteMTX, ReadMTX, WriteCooList, ReadCooList", "include/sparsematrix.hpp: Print"]}
{"id": "C114", "title": "LOBPCG hands hypre the given operator, preconditioner and vectors", "statement": "LOBPCG(pmat, x, precond) with vectors of the local size on every process returns exactly what hypre's iteration computes from those vectors when its products are the products with the whole distributed matrix and its preconditioner is the given one (including the content of the vector the preconditioner overwrites), and leaves the eigenvectors in x. Start vectors that are shorter are completed with zeros and get back as many elements as they have; a longer one is copied beyond the end of hypre's array. A matrix with another number of columns than rows on some process stops at an assertion at the first product. The product function ignores the factors alpha and beta it is given. Without vectors, as many random vectors of the right size are made as asked for.", "quantifier": "all operators, preconditioners, numbers of processes and vectors, and all programs hypre may run", "why_tests_cant": "the test calls LOBPCG on one matrix and prints the result", "anchors": ["modules/parlinalgcpp/src/parsolvers.cpp: LOBPCG, MyMatvec, MySolve", "modules/parlinalgcpp/src/parmatrix.cpp: Mult"]}
{"id": "C115", "title": "Random vectors are reproducible and in range; what the examples do with random matrices", "statement": "Randomize writes, to the elements of the vector and to nothing else, the numbers the engine draws, in order, all between the limits; with a seed that is not negative they depend on the seed and the limits only (not on the device, the old content or the length), otherwise on the state the device gave. Limits in the wrong order are undefined. With the engine of libstdc++ two seeds give different vectors except 0, 1 and 2147483647, which give the same. random_mat(n, m) is an n x m matrix with entries from -1 to 1. test_LU factors its matrix or divides by zero; test_QR with more columns than rows - all time_QR asks for - always stops at the assertion against a division by zero (exact arithmetic). LU() and QR() show the factors, the product and the solution.", "quantifier": "all engines that keep to their limits, all devices, seeds, limits, vectors and sizes", "why_tests_cant": "random input is never checked by the tests; the examples only print", "anchors": ["src/vectorview.cpp: Randomize", "include/vectorview.hpp: VectorView::Randomize", "examples/include/ex_utilities.hpp: random_mat", "examples/dense/dense_lu.cpp: test_LU, time_LU, LU", "examples/dense/dense_qr.cpp: test_QR, time_QR, QR"]}
{"id": "C116", "title": "The test programs of the direct solver and of the partitioner, for every size", "statement": "MakeMatrix(size, neighbors) stops at its assertion unless size > 2 * neighbors; otherwise the matrix stores exactly the pairs at most neighbors steps apart around the ring, size * (2 * neighbors + 1) entries, with 2 * neighbors on the diagonal and -1 elsewhere; it is symmetric, its rows add up to zero, it is positive semidefinite and only constant vectors are mapped to zero. EliminateRowCol makes row and column r those of the identity (if (r, r) is stored; zero otherwise) and keeps everything else; the ring matrix becomes positive definite. The test of the direct solver then computes the solution and prints the error 0 (exact arithmetic), and stops at an assertion for a zero right-hand side or if there are no neighbours. The test of the partitioner gets three partitions without empty parts.", "quantifier": "all sizes, numbers of neighbours, eliminated rows, right-hand sides, sort functions; all UMFPACK and METIS that keep their contracts", "why_tests_cant": "the tests have one size each and check nothing", "anchors": ["modules/sparsesolver/tests/test_sparsesolver.cpp: main, MakeMatrix, EliminateRowCol", "modules/partition/tests/test_partition.cpp: main"]}
{"id": "C117", "title": "Writing through the arrays and views of a sparse matrix", "statement": "GetIndicesView(i) has one element for each entry stored in row i, its column. Writing a column through it moves that entry of row i and changes nothing else; the matrix stays well-formed exactly when the column is one of the matrix, which nothing checks. A row that does not exist and a position behind the row are rejected. A negative position is not: position -1 of row i + 1 is the last entry of row i (outside the array for row 0). Writing GetData()[GetIndptr()[i] + k] changes one value and nothing else.", "quantifier": "all well-formed matrices, rows, positions, columns, values", "why_tests_cant": "no test writes through the views or checks what else changed", "anchors": ["include/sparsematrix.hpp: GetIndicesView, GetIndptr, GetIndices, GetData", "include/vectorview.hpp: operator[]"]}
{"id": "C118", "title": "Resizing a dense matrix keeps its buffer, not its positions; the short forms", "statement": "DenseMatrix::SetSize(r, c, val): entry (i, j) afterwards is the one at place i + j * r of the old matrix read column by column, val behind its end; columns keep their entries if the number of rows stays, and move otherwise. The constructors and SetSize with one size are square (without entries or zero), reject a negative size; Reserve changes nothing; CopyData gives the elements; GetCol, GetRow and GetSubVector that return a vector give the column, row and named elements, as the forms with an argument.", "quantifier": "all well-formed matrices, sizes, values, vectors", "why_tests_cant": "no test resizes a matrix that holds entries", "anchors": ["src/densematrix.cpp: SetSize, CopyData, DenseMatrix(int)", "include/densematrix.hpp: GetCol, GetRow", "include/coomatrix.hpp: Reserve, CooMatrix(int)", "include/lilmatrix.hpp: LilMatrix(int)", "include/sparsematrix.hpp: SparseMatrix(int)", "include/vectorview.hpp: GetSubVector"]}
{"id": "C119", "title": "What the parallel test program checks", "statement": "ParSplit followed by AddDiag(s) distributes over the processes the matrix A in the new numbering with s added at the stored diagonal positions. If A is the Laplacian of a weighted graph and stores its diagonal, the eigenvalues of the distributed matrix are at least s, the lowest is exactly s, and the second lowest is larger than s if and only if the graph is connected. Hence test_parlinalg succeeds on two processes whenever LOBPCG finds the two lowest eigenvalues up to d with every preconditioner and the second is nearer than tol - d to the expected number, and only if it is nearer than tol + d; on any other number of processes it stops.", "quantifier": "all Laplacians, partitions into two, preconditioners, start vectors and programs of hypre that meet the contract; all tolerances", "why_tests_cant": "the test runs on one matrix from a file that is not part of the sources", "anchors": ["modules/parlinalgcpp/tests/test_parlinalg.cpp: main", "modules/parlinalgcpp/src/parutilities.cpp: ParSplit", "modules/parlinalgcpp/src/parmatrix.cpp: AddDiag", "modules/parlinalgcpp/src/parsolvers.cpp: LOBPCG"]}
{"id": "C120", "title": "The sparse example from the file to the printed numbers", "statement": "vertex_edge.Mult(vertex_edge.Transpose()) stores exactly the pairs of vertices that have a common edge, whatever the values. The matrix of sparse_basics is the Laplacian of that graph: -1 for such a pair, the number of neighbours on the diagonal. A vertex without an edge stops the program. For any file it can read it prints the number of vertices and a number between 0 and twice the largest number of neighbours, unless the start vector is constant on every pair with a common edge, in which case and only then it stops. parse_dense gives the sums of the values of each position.", "quantifier": "all files, formats of numbers, start vectors, tolerances", "why_tests_cant": "the example prints and checks nothing", "anchors": ["examples/sparse/sparse_basics.cpp: main, AdjToLaplacian, PowerIterate", "examples/include/ex_utilities.hpp: parse_dense"]}
{"id": "C121", "title": "Copies of communication packages, the number of stored entries, the checks that throw", "statement": "ParMatrix::MakeCommPkg copies hypre's communication package exactly; without a hypre matrix it stops at its assertion, while ParCommPkg(nullptr) reads through the null pointer before its own assertion. ParMatrix::nnz() is the number of entries all processes store together. linalgcpp_verify throws exactly when its condition is false. linalgcpp_assert, documented to throw in debug mode only, throws in release mode only.", "quantifier": "all packages, distributed matrices, conditions", "why_tests_cant": "no test compares the copy or calls the checks", "anchors": ["modules/parlinalgcpp/src/parcommpkg.cpp: ParCommPkg", "modules/parlinalgcpp/src/parmatrix.cpp: MakeCommPkg, nnz", "include/utilities.hpp: linalgcpp_assert, linalgcpp_verify"]}
{"id": "C122", "title": "What the hypre solvers are told", "statement": "The constructors of BoomerAMG, ParaSails and ParCG set hypre up with the iterations, tolerances and printing they were given, provided the iterations fit in an int and load_bal is a whole number. Otherwise hypre is told something else: load_bal loses its fraction, so any value strictly between -1 and 1 switches load balancing off; 2^32 iterations become none. The setters of a ParaSails made with its matrix have no effect on what it applies.", "quantifier": "all arguments, all initial parameters, all sequences of setters", "why_tests_cant": "the tests use one setting and do not ask hypre what it was told", "anchors": ["modules/parlinalgcpp/src/parsolvers.cpp: BoomerAMG, ParaSails, ParaSails::Set*, ParCG"]}
{"id": "C123", "title": "The main test program", "statement": "Each test of tests/test_linalg.cpp as a program: its assertions hold and the values it prints are as given in the theorems. In exact arithmetic and with an exact LAPACK, test_coo, test_sparse, test_lil, test_dense, test_operator, test_blockmatrix, test_blockoperator, test_vector, test_blockvector, test_timer, test_eigensolve, test_parser and test_argparser run to the end, whatever Randomize and the random generators draw. In test_solvers MINRES and PMINRES reach an error below 1e-22 for every start vector; CG and PCG, which are stopped one step before the last, do not: for some start the squared error is above 7/100. With one more allowed iteration they do.", "quantifier": "all values drawn at random, all sorts, all exact LAPACKs, all clock readings, all iteration limits from the size on", "why_tests_cant": "the test program prints most results without checking them, for one random seed", "anchors": ["tests/test_linalg.cpp: test_coo, test_sparse, test_lil, test_dense, test_vector, test_parser, test_operator, test_solvers, test_blockmatrix, test_blockoperator, test_blockvector, test_timer, test_eigensolve, test_argparser"]}
{"id": "C124", "title": "Conjugate gradients finds the best approximation", "statement": "For a symmetric positive definite matrix (and preconditioner) and any start vector, the result of CG and PCG after k passes is a combination of the start vector and the first k (preconditioned) Krylov vectors, and no other such combination is nearer to the exact solution in the energy norm: the squared distance of any other is larger by exactly its squared distance to the result. Hence more passes never increase the error, the error never exceeds the start's, and if the exact solution is such a combination it is returned. With a positive tolerance Mult returns without error for every iteration limit. For real numbers: the error after k passes is at most max |p(t)| times the first, over the eigenvalues t of the (preconditioned) matrix, for every polynomial p of degree k with p(0) = 1; hence at most 2((sqrt hi - sqrt lo)/(sqrt hi + sqrt lo))^k times if the eigenvalues are between lo and hi, and zero if there are at most k different ones. If 2 sqrt(hi/lo) ((sqrt hi - sqrt lo)/(sqrt hi + sqrt lo))^k is below the relative tolerance and max_iter > k, CG and PCG stop by the tolerance and report at most k iterations.", "quantifier": "all sizes, matrices, preconditioners, right-hand sides, start vectors, iteration limits", "why_tests_cant": "a test sees one error per run and cannot compare with all other combinations", "anchors": ["src/solvers.cpp: PCGSolver::Mult", "include/solvers.hpp: CG, PCG"]}
{"id": "C125", "title": "The basic example programs", "statement": "examples/dense/dense_basics.cpp and examples/vector/vector_ops.cpp as programs. The dense example shows zero matrices of the sizes asked for and the matrices in its files, runs to its end if the files hold matrices of which the last two have one size with at least three rows and columns, and otherwise stops at an assertion; its sums, differences, multiples and products are those of the matrices. The vector example ends normally for every file that can be read. A file that cannot be opened ends both with an exception. On the shipped files the values shown are given. Two labels are wrong: the element shown as d_1 (2, 3) is the one at (2, 2), and the matrix shown as 10.0 * d0 is ten times d_1.", "quantifier": "all file contents", "why_tests_cant": "the examples print results without checking them, for one set of files", "anchors": ["examples/dense/dense_basics.cpp: constructors, matvec_ops, access_ops, matmat_ops, main", "examples/vector/vector_ops.cpp: main"]}
{"id": "C126", "title": "The vectors ParMatrix hands to hypre", "statement": "Mult and MultAT of a ParMatrix on plain vectors should describe to hypre an argument of Mult distributed like the columns and a result distributed like the rows (for MultAT the other way round). They do so exactly if rows and columns are distributed alike; otherwise the two descriptions are exchanged, e.g. a matrix with two rows and three columns announces an argument of size two. Copies behave the same.", "quantifier": "all row and column starts, all memories", "why_tests_cant": "hypre only returns a code, which the callers drop; the tests use square matrices", "anchors": ["modules/parlinalgcpp/src/paroperator.cpp: HypreCreate, InitVector", "modules/parlinalgcpp/src/parmatrix.cpp: Mult, MultAT"]}
{"id": "C127", "title": "Krylov solvers whose arguments share memory", "statement": "PCGSolver, MINRESSolver and PMINRESSolver::Mult(b, x) may be called with views that overlap in any way, including x = b: the outcome, the number of iterations and the solution are the same as for two separate vectors with the same elements, and no element outside x changes. In particular CG on a positive definite system solves in place, in at most n steps, the system with the right-hand side found before the call.", "quantifier": "all views inside one memory, all operators, preconditioners, inner products and parameters", "why_tests_cant": "the tests always pass two different vectors; overlap has infinitely many forms", "anchors": ["src/solvers.cpp: PCGSolver::Mult, MINRESSolver::Mult, PMINRESSolver::Mult"]}
{"id": "C128", "title": "NaN and infinities", "statement": "In arithmetic with NaN and infinities: operator== of vectors and dense matrices compares with !(|a-b| > tol), so NaN equals every number and equality is not transitive; Max and Min return a NaN in first place and skip any other; SparseMatrix::EliminateZeros drops NaN entries while CooMatrix and LilMatrix keep them; Add rejects NaN and accepts infinities; a NaN in Mult reaches exactly the rows whose stored entries meet it. PCGSolver::Mult with a NaN in the first residual throws; started at the solution with absolute tolerance zero it returns only NaN or throws. MINRESSolver and PMINRESSolver never stop early on NaN: they run max_iter passes, report max_iter + 1 and leave only NaN in x; PMINRES does so too when the preconditioner makes the first inner product negative. Where the exact models return, the models with NaN and infinities return the same.", "quantifier": "all vectors, matrices, operators, tolerances and iteration limits over every scalar type with the NaN rules, and over every ordered field with NaN and infinities added", "why_tests_cant": "tests use finite numbers only; a comparison that is wrong for NaN cannot be seen with them", "anchors": ["include/vectorview.hpp: operator==, Max, Min, AbsMax, AbsMin, operator/=", "src/densematrix.cpp: operator==", "include/sparsematrix.hpp: EliminateZeros, Mult", "include/coomatrix.hpp: Add, EliminateZeros", "include/lilmatrix.hpp: Add, EliminateZeros", "src/solvers.cpp: PCGSolver::Mult, MINRESSolver::Mult, PMINRESSolver::Mult"]}
{"id": "C129", "title": "The residual of PCG with rounding", "statement": "PCGSolver::Mult updates its residual and never recomputes it. In rounded arithmetic with overflow, underflow and NaN, for every matrix, preconditioner and inner product: if x and the residual are finite when it returns, then they were finite throughout, and b - A x differs from the residual in row i by at most gapStart + m * gapStep, where m is the number of passes and both are proportional to the unit roundoff, the row sum of |A| and the largest |x|, |r| met on the way. Without a preconditioner, a run that reports fewer than max_iter iterations ends with a residual whose sum of squares is below the tolerance up to rounding. In IEEE double precision the true residual can be above the tolerance although the tested one is exactly zero.", "quantifier": "all CSR matrices, right-hand sides, starts, preconditioners, inner products, tolerances and limits, over every scalar type whose finite results are near the exact ones; IEEE 754 double precision (round to nearest, gradual underflow, overflow) is one", "why_tests_cant": "a test sees the residual of a few runs; the gap for all inputs and all numbers of passes cannot be sampled", "anchors": ["src/solvers.cpp: PCGSolver::Mult, CG, PCG", "include/sparsematrix.hpp: Mult", "include/vectorview.hpp: Add, Sub, Mult"]}
{"id": "C130", "title": "Products, norms and averages with overflow and underflow", "statement": "Every element of Mult and MultAT (sparse, dense, coordinate, list-of-lists) and of the inner product, and every entry of the product of two sparse matrices, is a rounded sum of its products: if it is finite then all operands were finite and the error is at most ((1+u)^(k+1)-1) times the sum of the absolute values plus k (1+u)^k eta; it is finite whenever the operands are and that sum stays in range. In IEEE double precision L2Norm neither scales nor checks: if all elements are below 2^-538 it is zero and Normalize fails its assertion; if one is 2^512 or more it is infinite and Normalize leaves the zero vector. Mean of an empty vector is NaN. SubAvg subtracts Mean from every element, so one NaN makes all elements NaN.", "quantifier": "all matrices, vectors and well-formed shapes over every scalar type with the laws of rounding and range; IEEE 754 double precision is one", "why_tests_cant": "overflow and underflow need values that the tests do not contain, and the error bound is about all sums", "anchors": ["include/sparsematrix.hpp: Mult, MultAT, Mult(SparseMatrix)", "include/coomatrix.hpp: Mult", "include/lilmatrix.hpp: Mult", "src/densematrix.cpp: Mult, MultAT", "include/vectorview.hpp: InnerProduct, L2Norm, operator/=, Mean", "src/vectorview.cpp: Normalize, SubAvg", "src/solvers.cpp: PCGSolver::Mult"]}
{"id": "C131", "title": "Divisors of a floating-point type that are zero or NaN", "statement": "x /= y, A /= val, InverseScaleRows and InverseScaleCols (sparse and dense) divide every value by its divisor if no tested divisor is a zero and fail the assertion otherwise; NaN passes the test and makes the whole row NaN. For a sparse matrix every row is tested but only the columns with a stored entry. val / x never fails; where x is zero or NaN the result is not finite. lu_decomp, forward_elim and back_solve always return and compute the elimination in the order of the code; a zero pivot is not noticed (for the exchange matrix every element of the solution is NaN), but if every element of the solution is finite then no diagonal entry was zero or NaN and every entry that was used is finite.", "quantifier": "all matrices, vectors and divisors over every scalar type with the laws of NaN, rounding and division; IEEE 754 double precision is one", "why_tests_cant": "the tests divide by a few non-zero numbers only", "anchors": ["include/vectorview.hpp:531-546", "include/vector.hpp:282-291", "include/sparsematrix.hpp: operator/=, InverseScaleRows, InverseScaleCols", "include/densematrix.hpp: InverseScaleRows, InverseScaleCols", "src/densematrix.cpp: operator/=", "examples/dense/dense_lu.cpp: lu_decomp, forward_elim, back_solve, solve_lu"]}
{"id": "C132", "title": "Whole numbers in double precision are not rounded", "statement": "If the entries of the matrices and vectors are whole multiples of powers of two and the absolute values of the products that are added up for one element come to at most 2^53 units, then in IEEE double precision Mult, MultAT and Mult(Dense) of a sparse matrix, the product of two sparse matrices, Mult and MultAT of a dense matrix, the inner product, the sum and the updates of vectors return the exact results, in whatever order the entries are stored. lu_decomp returns whole factors exactly, and solve_lu a whole solution. CG with absolute tolerance zero started at a whole solution therefore divides zero by zero: it returns NaN or throws. The bound 2^53 cannot be raised by one.", "quantifier": "all matrices and vectors of whole numbers with that bound, all exponents in the range of double precision", "why_tests_cant": "the tests use small whole numbers only, so they never see rounding, and say nothing about where it begins", "anchors": ["include/sparsematrix.hpp: Mult, MultAT", "src/densematrix.cpp: Mult, MultAT", "include/vectorview.hpp: InnerProduct, Sum, Add, Sub", "examples/dense/dense_lu.cpp: lu_decomp, solve_lu", "src/solvers.cpp:144-229"]}
{"id": "C133", "title": "Reading files with 32-bit int, 64-bit sizes and limited memory", "statement": "With int of 32 bits, size_t of 64 bits and vectors that throw when memory runs out, ReadAdjList, ReadGraphList, ReadCooList, ReadTable, ReadMTX, ReadMTXList, ReadCSR, ReadBinaryMat and ReadBinaryVect return the same as with unbounded integers whenever the numbers, the numbers of rows, columns and entries fit and there is memory; so what WriteCSR writes is read back exactly. Outside that range: a list of entries ends silently at the first number that does not fit an int, and a table line does; row 2147483646 or column 2147483647 in a list without a size is undefined behaviour; a Matrix Market file whose number of rows does not fit is undefined behaviour; a CSR file whose first number is -1, 2^64-1 or more is undefined behaviour, because rows + 1 is zero; a binary matrix with 2^64-1 rows accesses an empty vector; sizes above the memory throw.", "quantifier": "all files, all amounts of memory, both values of symmetric", "why_tests_cant": "the test files are small; nothing in the tests contains a number near 2^31 or 2^64", "anchors": ["include/parser.hpp:95-114", "include/parser.hpp:160-189", "include/parser.hpp:202-231", "include/parser.hpp:322-351", "include/parser.hpp:402-436", "include/parser.hpp:479-520", "include/parser.hpp:577-623", "include/parser.hpp:635-681"]}
{"id": "C134", "title": "Distributed vectors passed as VectorView: which sum is taken", "statement": "VectorView::Mult and L2Norm are virtual and ParVector overrides them with sums over all processes. InnerProduct(x, y), x * y and x.Mult(y) give every process the inner product of the whole vectors when x is a ParVector, and that of its own elements otherwise, whatever y is; so a ParVector and a Vector cannot be exchanged. A.InnerProduct(x, y) is decided by y. L2Norm is the norm of the whole vector for a ParVector. ParMult and ParL2Norm are right for vectors that are not ParVectors; for a ParVector the sum is taken twice, and ParMult is too large by the number of processes, ParL2Norm by its root. Normalize takes its argument by value, so each process divides by the norm of its own elements: the squares of the result sum to the number of processes, and a process with only zeros makes it assert. Sum and Mean, and SubAvg through a VectorView, work on the elements of each process. On one process none of this makes a difference.", "quantifier": "all vectors, distributions and numbers of processes", "why_tests_cant": "there are no tests of ParVector with these functions, and on one process all variants agree", "anchors": ["include/vectorview.hpp:133", "include/vectorview.hpp:171", "include/vectorview.hpp:455-475", "include/vector.hpp:112-116", "src/vectorview.cpp:39-53", "src/operator.cpp:90-93", "modules/parlinalgcpp/src/parvector.cpp:153-237"]}
{"id": "C135", "title": "Norm and Normalize in double precision", "statement": "With std::sqrt correctly rounded as IEEE 754 requires: for vectors of up to 2^40 finite doubles, none above 2^480 and not all below 2^-480, L2Norm returns a finite number with a relative error of at most (n + 2) 2^-53. Normalize succeeds; each element differs from the quotient by the norm by at most (n + 3) 2^-53 relative to it, and 2^-1075 for underflow; the squares of the elements sum to 1 up to (n + 3) 2^-52, and the norm computed afterwards is 1 up to (n + 3) 2^-52. So assert(std::fabs(L2Norm(v) - 1.0) < 1e-10) after Normalize(v) holds for up to 400000 elements. It is not exactly 1: for {1, 1} the norm is 1 - 2^-53, and normalizing again changes the vector.", "quantifier": "all vectors of doubles in the stated range, of any length up to 2^40", "why_tests_cant": "a test normalizes one vector of equal elements", "anchors": ["src/vectorview.cpp:39-42", "include/vectorview.hpp:455-475", "include/vectorview.hpp:605-616", "tests/test_linalg.cpp:776-778"]}
{"id": "C136", "title": "The product of distributed matrices with OpenMP threads", "statement": "Compiled with HYPRE_USING_OPENMP, ParMatrix::Mult(ParMatrix) gives the same result as with one thread, the same arrays in the same order, for every number of threads and every interleaving of their rows between the barriers: the ranges of the threads cover every row exactly once, a row is written only to its own places of the shared arrays, and the row pointers counted per thread add up. This needs the parallel region of RowSizes to run with hypre_NumThreads() threads: with fewer the rows of the missing threads are not counted and the row pointers are wrong.", "quantifier": "all numbers of threads, all interleavings of rows, all distributed matrices of fitting sizes over any number of processes", "why_tests_cant": "the project's tests run with one thread, and a test sees one interleaving", "anchors": ["modules/parlinalgcpp/src/hypre_ops.cpp:33-295", "modules/parlinalgcpp/src/hypre_ops.cpp:297-891"]}
{"id": "C137", "title": "Builds without assertions", "statement": "Compiled with NDEBUG, a call whose assertions hold returns what it returns in a debug build. Where an assertion would fail: operations with two views ignore the length of the right one (assignment: of the left one, so a longer vector overwrites what follows); InnerProduct cuts off a longer second vector and reads past the end of a shorter one; Mult and MultAT of a sparse matrix work exactly if the vectors have an element for every stored row and column, compute the product and leave the rest of the output alone (MultAT: zero), and otherwise access memory outside; the same for a coordinate matrix, whose MultAT, rejected by a debug build for rectangular matrices, is then correct; the SparseMatrix constructor and CooMatrix::Add accept anything, and ToSparse with an entry outside the rows accesses memory outside.", "quantifier": "all matrices, all vectors and views of any lengths, both builds", "why_tests_cant": "the tests are run in one build with correct sizes; what happens beyond an array's end is undefined", "anchors": ["include/vectorview.hpp:245-278", "include/vectorview.hpp:380-475", "include/vectorview.hpp:512-584", "include/sparsematrix.hpp:466-483", "include/sparsematrix.hpp:1034-1070", "include/coomatrix.hpp:325-339", "include/coomatrix.hpp:583-670"]}
{"id": "C138", "title": "Division by a zero norm without assertions", "statement": "Dividing a vector by zero fails an assertion in a debug build; with NDEBUG it returns, and every zero of the vector has become NaN. Hence Normalize of a zero vector gives only NaN, and MINRES and PMINRES started at a solution (for example b = 0, x = 0) make max_iter iterations and return a vector of NaN, whatever the matrix, the size and the tolerances, where the debug build fails an assertion in the first iteration. The same happens in a later iteration if the norm becomes zero and the tolerance is zero: the solution found is replaced by NaN. Runs that pass the assertions give the same result in both builds.", "quantifier": "all operators, vectors, sizes, tolerances and iteration limits; any floating-point arithmetic in which 0/0 is NaN and NaN propagates", "why_tests_cant": "the tests never start a solver at the solution, and run in one build", "anchors": ["include/vectorview.hpp:605-616", "src/vectorview.cpp:39-42", "src/solvers.cpp:283-361", "src/solvers.cpp:429-515"]}
{"id": "C139", "title": "Dense matrices without assertions", "statement": "With NDEBUG, D(i, j) outside the matrix accesses the element at the address i + j * rows if that lies in the buffer (an element of another column), and memory outside the buffer otherwise. Mult and MultAT with vectors that are too long return the product (Mult clears the rest of the output, MultAT keeps it), and read or write out of bounds if one is too short. The products of two matrices whose inner sizes differ ignore the surplus rows or columns of the second matrix; if it has too few, dgemm rejects the call (Mult, MultAT) or reads past the end of its data (MultBT, MultABT). += and -= of matrices of different shapes combine the buffers position by position. Invert never reports a singular matrix. Runs that pass the assertions give the same result in both builds.", "quantifier": "all matrices, indices, vectors and sizes; any semiring of values", "why_tests_cant": "the tests only use matching sizes, valid indices and invertible matrices", "anchors": ["include/densematrix.hpp:586-607", "include/densematrix.hpp:655-698", "src/densematrix.cpp:46-53", "src/densematrix.cpp:202-236", "src/densematrix.cpp:263-291", "src/densematrix.cpp:683-719"]}
{"id": "C140", "title": "Products and updates of sparse matrices without assertions", "statement": "With NDEBUG, the product of a sparse matrix with a sparse or dense matrix whose number of rows differs works exactly if every stored column of the first factor is a row of the second (for MultAT: if every row that is not empty is a row of the second); it is then the product, and reads out of bounds otherwise. ScaleRows, ScaleCols and AddDiag work exactly if the vector has an element for every row, stored column or stored diagonal element, and read out of bounds otherwise. PermuteCols does not check the new columns: the result is well formed exactly if they are columns of the matrix. GetDiag of a matrix that is not square has one element per row. EliminateRow with an index outside the matrix reads out of bounds and EliminateCol changes nothing. Runs that pass the assertions give the same result in both builds.", "quantifier": "all well-formed matrices of all sizes, all vectors, permutations and indices; any semiring of values", "why_tests_cant": "the tests only use matching sizes and valid indices", "anchors": ["include/sparsematrix.hpp:643-709", "include/sparsematrix.hpp:778-818", "include/sparsematrix.hpp:1091-1168", "include/sparsematrix.hpp:1283-1311", "include/sparsematrix.hpp:1347-1361", "include/sparsematrix.hpp:1405-1433"]}
{"id": "C141", "title": "List-of-lists matrices without assertions", "statement": "With NDEBUG, LilMatrix::Add ignores the column and the declared size: it stores the entry if the row exists (or can be made, for a matrix without a size), and otherwise writes outside the rows; for a matrix without a size the row -1 does the same and smaller rows throw. ToSparse of a matrix with as many rows as declared always succeeds with the same coefficients and sorted rows, and the result is well formed exactly if every column is inside the matrix; with more rows stored than declared it writes outside the row pointers. Mult and MultAT work exactly if every entry lies inside the two vectors, and are then the products (also the transposed product of a rectangular matrix, which a debug build rejects); otherwise they access memory out of bounds. Add with a dense matrix cuts longer lists of rows and columns to the size of that matrix and does not return normally with shorter ones. Runs that pass the assertions give the same result in both builds.", "quantifier": "all matrices, rows, columns, vectors; any semiring of values; any sort of the rows by column", "why_tests_cant": "the tests only use valid indices and matching sizes", "anchors": ["include/lilmatrix.hpp:258-287", "include/lilmatrix.hpp:352-456", "include/lilmatrix.hpp:289-319"]}
{"id": "C142", "title": "Block matrices without assertions", "statement": "With NDEBUG, BlockMatrix::SetBlock stores a matrix of any size at a place inside the layout and GetBlock returns it; outside the layout both access memory out of bounds. Transpose never fails: block (J, I) of the result is block (I, J) itself, not transposed, whatever its size. Mult works exactly if the output has room for the rows, every non-empty block has the rows its place needs and every stored column plus its block offset is inside the input; a block that is too wide then acts on the next block column too, and output elements past the rows are zero. MultAT works exactly if every non-empty block has the rows its place needs and every stored element lies inside both vectors. Combine returns exactly if every non-empty block has the rows its place needs; its rows are the sums of the shifted rows of the blocks, and it is a well-formed matrix exactly if no block reaches past the last column or stores an element in a row outside the layout. In all other cases memory is accessed out of bounds. Runs that pass the assertions give the same result in both builds.", "quantifier": "all layouts, blocks of all sizes, vectors of all lengths; any semiring of values", "why_tests_cant": "the tests only use blocks that fit the layout and vectors of matching sizes", "anchors": ["include/blockmatrix.hpp:131-138", "include/blockmatrix.hpp:184-288", "include/blockmatrix.hpp:318-417"]}
{"id": "C143", "title": "Row access, submatrices and eliminations of sparse matrices without assertions", "statement": "With NDEBUG, GetIndices(row), GetIndicesView(row) and GetData(row) read outside the row pointers for every row number outside the matrix. AddDiag(val) of a matrix that is not square adds val to the entries stored on the diagonal. EliminateRowCol(index) works for every index, and one outside the matrix changes nothing. EliminateCol(marker) works exactly if the marker has an element for every stored column. EliminateRowCol(marker) works, for any shape, exactly if the marker has an element for every row that stores something and for every column stored in a row that is not marked. GetSubMatrix(rows, cols, marker) with a clean marker of any length works exactly if the rows are rows of the matrix and the selected columns and those stored in the selected rows are positions of the marker; a selected column that the matrix does not have gives an empty column. GetSubMatrix(rows, cols) works exactly if rows and columns are in range. In all other cases memory is accessed out of bounds. Runs that pass the assertions give the same result in both builds.", "quantifier": "all well-formed matrices, row numbers, indices, markers of all lengths, lists of rows and columns", "why_tests_cant": "the tests only use arguments that pass the assertions", "anchors": ["include/sparsematrix.hpp:820-905", "include/sparsematrix.hpp:960-1012", "include/sparsematrix.hpp:1363-1403", "include/sparsematrix.hpp:1435-1451"]}
{"id": "C144", "title": "Rows, columns and blocks of dense matrices without assertions", "statement": "With NDEBUG, GetCol, GetRow, SetCol and SetRow work exactly if the column (or row) is empty, or the index is in range and the vector is long enough; a longer vector given to GetCol or GetRow keeps its other elements. GetDiag of a matrix that is not square works exactly if there are no more rows than columns. GetSubMatrix with any range that is not negative works exactly if the range is empty or its first and last elements have addresses in the buffer; element (i, j) is what lies at the address of (i + start_i, j + start_j), so a range that passes the last row goes on in the next column. SetSubMatrix(start_i, start_j, dense) works under the same condition; it writes exactly the addresses of the elements of the block, each of which then holds its element unless a later column of the block has the same address. In all other cases memory is accessed out of bounds. Runs that pass the assertions give the same result in both builds.", "quantifier": "all well-formed matrices, indices, ranges and vectors of all lengths", "why_tests_cant": "the tests only use arguments that pass the assertions", "anchors": ["include/densematrix.hpp:725-789", "src/densematrix.cpp:451-471", "src/densematrix.cpp:502-525", "src/densematrix.cpp:721-741"]}
{"id": "C145", "title": "Extremes, selections, stacking and timers without assertions", "statement": "With NDEBUG, Max, Min, AbsMax and AbsMin of an empty vector and Max and Min of an empty dense matrix read behind the end of the memory, while Sum of an empty dense matrix is zero. GetSubVector works exactly if all indices are in range, Timer::operator[] exactly if there are clicks index and index + 1, and DenseMatrix::GetRow(rows) exactly if the matrix has no columns or all rows are in range. HStack of matrices works exactly if the first has no rows or every matrix with columns has at least as many rows as the first; the result has the rows of the first matrix and further rows of the others are dropped without an error. In all other cases memory is accessed out of bounds. Runs that pass the assertions give the same result in both builds.", "quantifier": "all vectors, index lists, timers, well-formed dense matrices and non-empty lists of them", "why_tests_cant": "the tests only use arguments that pass the assertions", "anchors": ["include/vectorview.hpp:351-365", "include/vectorview.hpp:679-731", "include/densematrix.hpp:621-644", "src/densematrix.cpp:385-411", "src/densematrix.cpp:743-779", "src/timer.cpp:30-37"]}
{"id": "C146", "title": "AddSubMatrix and SetSubMatrixTranspose without assertions", "statement": "With NDEBUG, AddSubMatrix(rows, cols, dense) works exactly if for every element (i, j) of the block the lists have elements i and j and the address rows[i] + cols[j] * Rows() is in the buffer; longer lists are not an error. Every address then gets the sum of all elements of the block that belong to it, so that a row that does not exist adds to the next column. SetSubMatrixTranspose(i, j, dense) works exactly if the block is empty or its first and last elements have addresses in the buffer, writes exactly these addresses, and a block that is in range sets its transposed elements and no others. In all other cases memory is accessed out of bounds. Runs that pass the assertions give the same result in both builds.", "quantifier": "all well-formed dense matrices and blocks, all index lists and all positions", "why_tests_cant": "the tests only use arguments that pass the assertions", "anchors": ["src/densematrix.cpp:527-567"]}
{"id": "C147", "title": "EliminateCol(marker, x, b) without assertions", "statement": "With NDEBUG, EliminateCol(marker, x, b) works exactly if the marker has an element for every stored column, x has an element for the column and b has one for the row of every stored value that is not zero and whose column is marked. Then the values of marked columns become zero, every element of b loses the products of its row with the elements of x in marked columns, and further elements of b stay as they are. In all other cases memory is accessed out of bounds. Runs that pass the assertions give the same result in both builds.", "quantifier": "all well-formed sparse matrices over a ring, and all markers and vectors of any lengths", "why_tests_cant": "the tests only use arguments that pass the assertions", "anchors": ["include/sparsematrix.hpp:1453-1470"]}
{"id": "C148", "title": "Divisions, combinations and parts of vectors without assertions", "statement": "With NDEBUG, Add(alpha, x, beta, y, gamma, z) ignores the lengths of y and z and does what it does in a debug build when they are as long as x. lhs /= rhs ignores the length of rhs; for integers it divides by zero exactly where a debug build stops at a zero, and for a division that always has a result every element of lhs is divided and no other changed, provided both lie in memory (otherwise memory is accessed out of bounds) and are the same or disjoint. vect /= 0 divides by zero unless the vector is empty. BlockVector::GetBlock works exactly if there are offsets block and block + 1 and gives a view of negative size if they decrease. GetColView gives a view of the addresses of any column, even one that does not exist. Runs that pass the assertions give the same result in both builds.", "quantifier": "all views of all memories, all offsets and all dense matrices", "why_tests_cant": "the tests only use arguments that pass the assertions", "anchors": ["include/vectorview.hpp:531-546", "include/vectorview.hpp:605-616", "include/vectorview.hpp:819-831", "include/blockvector.hpp:130-139", "include/densematrix.hpp:700-706"]}
{"id": "C149", "title": "Scaling by inverses without assertions", "statement": "With NDEBUG, InverseScaleRows(values) of a dense matrix works exactly if the matrix has no columns or there is a value for every row, and InverseScaleCols(values) exactly if there is a value for every column, even without rows; every element is then divided by the value of its row or column, whether or not that is zero. Otherwise memory is accessed out of bounds. InverseScaleRows of a sparse matrix works exactly if there is a value for every row, and InverseScaleCols exactly if there is a value for every stored column. Dense and sparse matrices are divided by any number, also zero, element by element, and assigning any number, also zero, to a sparse matrix sets its stored values and keeps its pattern. Runs that pass the assertions give the same result in both builds.", "quantifier": "all well-formed dense and sparse matrices, all lists of values, all numbers and every division that always has a result", "why_tests_cant": "the tests only use arguments that pass the assertions", "anchors": ["include/densematrix.hpp:817-844", "src/densematrix.cpp:323-338", "include/sparsematrix.hpp:1182-1205", "include/sparsematrix.hpp:1313-1345"]}
{"id": "C150", "title": "Block operators without assertions", "statement": "With NDEBUG, SetBlock of a BlockOperator stores an operator of any size at a block that exists and changes nothing else, GetBlock reads what is there, and both access memory out of bounds elsewhere. Mult of a vector longer than the operator has columns computes the product with its leading part; a longer output keeps its other elements and a shorter one is written out of bounds; the same holds for MultAT. No call returns normally whose input ends before a block in which an operator is set. After a Mult with too long an input no MultAT into an output of the right size returns normally, and the other way round, because the work vector keeps the length of the input. Runs that pass the assertions give the same result in both builds.", "quantifier": "all block operators, all positions, all operators in the blocks, all inputs and outputs whose leading part can be multiplied with assertions on, all states of the work vectors", "why_tests_cant": "the tests only use arguments that pass the assertions", "anchors": ["src/blockoperator.cpp:66-150", "include/vector.hpp:176-187", "include/vectorview.hpp:245-256"]}
{"id": "C151", "title": "Adding lists to a coordinate matrix without assertions", "statement": "With NDEBUG, Add of a CooMatrix with a list of indices and a vector of values adds one entry for every index, ignores further values and reads missing ones out of bounds; with lists of rows, columns and values the list of columns decides; with a dense matrix all its elements are added column by column and the lists of rows and columns may be longer. The scaled forms multiply each value from the left. PermuteRows, PermuteCols and PermuteRowsCols work exactly if the lists have an element for the row and column of every stored entry, and read out of bounds otherwise. SetSize accepts any size. Runs that pass the assertions give the same result in both builds.", "quantifier": "all coordinate matrices, all lists of any lengths, all well-formed dense matrices, all factors", "why_tests_cant": "the tests only use arguments that pass the assertions", "anchors": ["include/coomatrix.hpp:305-315", "include/coomatrix.hpp:352-504", "include/coomatrix.hpp:536-581"]}
{"id": "C152", "title": "Reading the command line without assertions", "statement": "With NDEBUG, the constructor of ArgParser accepts every command line, empty arguments included. An argument takes the next one as its value unless that starts with two dashes, whatever it starts with itself, and there is only one such reading; each text in the place of a flag gets the value after its first occurrence, an error is kept exactly if one occurs twice, and help is wanted exactly if --help occurs. A stray word therefore takes a following flag with a single dash for its value, and that flag is then unknown. A command line accepted with assertions gives the same parser in both builds.", "quantifier": "all command lines", "why_tests_cant": "the tests and examples only use command lines that pass the assertions", "anchors": ["src/argparser.cpp:6-65"]}
