# Formal model of gelever/linalgcpp: design

The code under study is the C++ source in /repo (never built or run here). This directory holds a Lean 4
model of it, a list of properties (`properties.jsonl`), theorems (`lean/Verif/`), the claim status
(`MANIFEST.json`) and a log of deliberately broken models (`seeded/LOG.jsonl`).

## 1. How the code is modelled

* **Outcomes.** Every C++ function becomes a total Lean function into `Res a = Except Err a`, with the errors
  `assertFail` (a failed `assert`, debug build), `outOfBounds` (an access outside a `std::vector`, list or view:
  undefined behaviour), `divZero` (a floating division by zero, which would give inf/nan), `threw` (C++ exception) and
  `undefinedBehaviour` (any other UB: dereferencing `end()`, reading uninitialised data).
  A theorem of the form `f x = .ok r /\ ...` therefore *includes* memory safety and assertion freedom.
  `assert`s have no side effects, so a run that is `ok` here is the same run in an NDEBUG build.
* **Vectors.** `std::vector<T>` is `List T`; reads and writes go through `rd`/`wr`, which take a signed `Int` index
  and fail with `outOfBounds` unless `0 <= i < size`.
* **Integers.** C++ `int`/`size_t` values are `Int`: no wrap-around is modelled. 32-bit overflow is outside the model, except in C108.
* **Scalars.** Value types are type parameters. Structural functions (Transpose, SortIndices, GetSubMatrix, I/O ...) are
  proved for an arbitrary type with no laws, so the results hold for `double`, `float` and `int` alike.
  Arithmetic claims are proved over an arbitrary commutative semiring / ring / (ordered) field, i.e. for exact
  arithmetic: IEEE rounding (except in C104, C105, C129, C130), NaN and infinities (except in C128 to C131) are outside the model.
* **Loops.** `for (i = a; i < b; ++i)` is `forUp a b s body`, in the `Res` monad, with the loop-carried variables as
  state `s`. Range-for loops are `List.foldlM`. `do/while` loops are fuel-free structural recursion on the remaining
  iteration count.
* **Views.** `VectorView` aliasing is modelled with an explicit memory (one buffer, offset and length) in the modules that
  are about aliasing; elsewhere vectors passed by view are lists that are returned updated.
* **Externals.** BLAS `dgemm`, LAPACK, UMFPACK, METIS, hypre and MPI are not part of the repository. Where a property
  needs one, its published contract is a reference implementation (dgemm, MPI_Scan/Bcast) or an explicit hypothesis.

## 2. Layout of the Lean project

* `Verif/Cpp/` outcome monad, checked vectors, loops and their proof rules.
* `Verif/Model/` transliteration of the code; every definition cites file and lines.
* `Verif/Spec/` small independent specifications (what a CSR matrix represents, products, well-formedness).
* `Verif/Proof/` helper lemmas.
* `Verif/Props/` the property theorems, each next to an `example` showing its hypotheses are satisfiable.
* `Verif/Check/` runs of the project's own tests (tests/test_linalg.cpp) in the model: a check of the model, no claims.

## 3. Trusted base

* Lean's kernel (4.33.0) and Mathlib's definitions used in statements (`Finset.sum`, `List`, ordered fields ...).
* Axioms: only `propext`, `Classical.choice`, `Quot.sound` (checked by `#print axioms`); none of our own.
* The faithfulness of `Verif/Model/` to /repo (by reading, with line citations), and the specifications in `Verif/Spec/`.
* The idealisations of section 1 (unbounded integers, exact scalars, contracts of external libraries).

## 4. Plan per property

* **C01** Sparse matrix-vector product is correct and in bounds: CSR model with checked reads; both loops; refine to a fold over the stored triples; equate with the sum formula (semiring).
* **C02** Transposed product is correct and is the adjoint of Mult: Scatter loop; invariant on the output after each stored triple; adjointness by exchanging sums.
* **C03** Transpose moves every stored entry to its mirrored position: Counting sort with out_indptr bumping, modelled statement by statement over a lawless type; invariant: entry count so far per column; result characterised as the stable bucket sort of the triples.
* **C04** Sparse-sparse product is correct and independent of the marker workspace: Both passes with the marker; invariant relating marker, counters and the set of columns seen; semiring.
* **C05** SortIndices sorts each row without changing the matrix: std::sort as a relation (any sorted permutation); prove for all outcomes.
* **C06** ToDense represents the same matrix as Mult: ToDense as overwrite; prove equality when rows are duplicate free, last-wins in general, and a concrete counterexample.
* **C07** Submatrix extraction picks exactly the requested entries and restores the marker: Marker protocol modelled; invariant: marker is the inverse of cols; histories by induction over a list of requests.
* **C08** EliminateZeros removes exactly the small entries: Compaction loop; refine to List.filter per row.
* **C09** Row/column elimination has the documented effect and nothing else: Map over stored triples with indices; sum formula consequences; solution preservation over a ring.
* **C10** Diagonal accessors agree with the matrix: Loop with overwrite; conditional theorem and counterexamples.
* **C11** A matrix accepted by the array constructor is safe to use: Constructor assertions; counterexample to safety; theorem with the two missing conditions.
* **C12** Row and column scaling multiply by the given diagonal and are undone by inverse scaling: Map over stored entries; field round trip.
* **C13** PermuteCols relabels columns: Map over indices; injectivity gives the entry equation; inverse round trip.
* **C14** Sparse-dense products are correct in all three layouts: Dense model (column major); loops; sums.
* **C15** Scalar updates act on the represented matrix: Map over data; list sums.
* **C16** Well-formedness is preserved by every history of SparseMatrix operations: Inductive set of operations; preservation of well-formedness by induction over histories.
* **C17** CooMatrix::ToSparse represents exactly the sum of the added entries: Entry list model; per-row association list as the std::map; invariant over entries; permutation invariance of sums.
* **C18** CooMatrix conversions agree: Overwrite-free dense accumulation; compare with C17.
* **C19** CooMatrix size inference and bounds checking: FindSize as max fold; least upper bound.
* **C20** Symmetric and block adds: Loops over index lists; entry list characterisation; symmetry by induction over histories.
* **C21** CooMatrix::MultAT computes the transposed product: Assertions as written; proof for square; two counterexamples.
* **C22** CooMatrix permutations relabel rows and columns: Map over entries.
* **C23** EliminateZeros on coordinate formats removes zeros: Filter with the code's comparison; negation with a stored zero.
* **C24** LilMatrix::ToSparse represents the added entries with sorted rows: Row lists, sort as any sorted permutation, merge loop; invariant.
* **C25** LilMatrix without a given size behaves like CooMatrix without a given size: Same model without a size: negation on every non-empty history.
* **C26** LilMatrix::SetSize keeps later operations in bounds: Counterexample run; theorem for constructor-sized matrices.
* **C27** Views alias exactly the part of the owner they name: Memory model: buffer, offset, length; frame lemma.
* **C28** Element-wise vector updates are exact and safe under aliasing: Memory model; element loop over possibly equal views.
* **C29** Vector equality tolerance relation: Decision function over an ordered field; reflexive, symmetric; counterexample to transitivity.
* **C30** Reductions are correct: Folds; equality with sums / extremality over a linear order.
* **C31** SubAvg and Normalize establish their postconditions: Field; sums.
* **C32** Vector resizing preserves the common prefix: List take/replicate.
* **C33** Dense element access is a faithful column-major layout: Layout injectivity by division with remainder.
* **C34** Dense submatrix get/set round-trip: Nested loops with write invariants.
* **C35** Dense transpose: Nested loop; involution.
* **C36** Dense matrix-vector products: Nested loops; sums.
* **C37** Dense matrix-matrix products pass the right shapes and strides to BLAS: Reference dgemm with lda/ldb/ldc on flat buffers; prove in-bounds and product.
* **C38** Horizontal stacking: Loop over the list of matrices with running start column.
* **C39** BlockMatrix products equal the product with the combined matrix: Offsets, grid of CSR blocks, Combine's three nested loops; sum over blocks.
* **C40** BlockMatrix::Transpose represents the transpose: Transliteration; counterexamples.
* **C41** BlockOperator acts as the block matrix of its operators: Operators as functions; workspace as state; histories.
* **C42** PCG keeps the true residual, and stopping early means the residual is small: Vectors as functions over a field, linear operator; loop invariant r = b - A x.
* **C43** Krylov solvers respect the iteration limit they report: Iteration counter in the same model, exact counts and counterexamples.
* **C44** CG has the orthogonality and finite-termination property: Induction over iterations with the CG orthogonality invariants.
* **C45** PCG reports operators that are not positive definite: Counterexample run of the model.
* **C46** MINRES started at the exact solution returns it: Counterexample for every exact start.
* **C47** Example LU factorisation and triangular solves are correct: Dense model over a field; loop invariants of the elimination.
* **C48** Binary vector files round-trip, and truncated files are not silently accepted: Byte-level file model; little-endian size; truncation theorem.
* **C49** Binary matrix files round-trip: Byte-level file model.
* **C50** Text vector files round-trip: Character-level model of operator<< / operator>> for integers.
* **C51** CSR text files round-trip: Character-level model.
* **C52** Matrix Market files round-trip: Character-level model.
* **C53** Coordinate and adjacency list files round-trip: Character-level model; shape counterexample.
* **C54** Boolean tables round-trip: Line-level model with getline.
* **C55** ReadGraphList builds a graph Laplacian: Coo model; induction over lines.
* **C56** Symmetric readers return symmetric matrices: Coo model; induction over lines.
* **C57** ArgParser assigns each flag its own value: argv as list of strings; association list as the std::map; induction.
* **C58** Timer intervals add up: List of time points; telescoping.
* **C59** EigenSolver selects a valid number of eigenvectors: While loop on eigenvalue list; counterexample for max_evect > n.
* **C60** EigenSolver workspaces are always large enough: Sizes-only state machine; invariant over histories.
* **C61** RemoveEmpty compresses partition labels: Loops over label counts; order isomorphism.
* **C62** Partition adjacency drops the diagonal only: CSR loop; filter.
* **C63** GenerateOffsets partitions the global range: Processes as a list of local sizes; scan/bcast reference semantics.
* **C64** SortColumnMap sorts the map and keeps every entry's global column: std::sort as a relation.
* **C65** ParAdd computes alpha*A + beta*B: One process's local data; counterexample and exact statement for scalars 1; exact result in general.
* **C66** ParSplit distributes the permuted matrix: Processes as list; symmetric matrices.
* **C67** Example QR factorisation and least squares: the loops of examples/dense/dense_qr.cpp over a field with a square root; orthogonality and residual identities.
* **C68** EigenSolver returns eigenpairs: LAPACK dsyevx/dsyev by contract; column bookkeeping and tolerance cut-off by the model.
* **C69-C71** Dense arithmetic, scaling and access: map/zip over the column-major data, entry equations.
* **C72** Sparse row access: slices of the row arrays against the specification's rows.
* **C73** Partition: METIS by contract, RemoveEmpty proved in C61.
* **C74** ParMatrix construction: the assertions of the constructors as an exact acceptance condition; hypre's reordering of rows by contract.
* **C75** Local part of ParMatrix::Mult: both passes (RowSizes and the fill) as folds over the same list of events with a marker; simulation between the passes; sums.
* **C76** Global product: C75 on every process plus the contract of hypre_ParCSRMatrixExtractBExt; sums over owners.
* **C77** Distributed transpose: each process packs the transposed off-diagonal rows; the exchange by contract of the communication package; received rows are buckets of the entries of the other processes; a fitting package exists for every matrix.
* **C78** Triple product: C77 and C76 composed as in RAP.
* **C79** Invert: calls of LAPACK with their buffer sizes; the contract of dgetrf/dgetri gives the inverse or a non-zero info.
* **C80** SVD: as C79 with dgesvd; consequences of the decomposition by matrix algebra.
* **C81** QR: as C79 with dgeqp3/dorgqr; wide matrices overrun the pivot array.
* **C82, C83** MINRES, PMINRES: Lanczos vectors orthonormal, rotations, residual = eta times a unit vector, orthogonality to the images of the directions; no breakdown for a consistent system. Rates of convergence from the spectral theorem and Chebyshev polynomials (`Props/MinresRate.lean`).
* **C84** Solver objects and functions: constructors as assertion lists; the functions by composition with C44, C82, C83.
* **C85, C86** ParVector: shares concatenate to the whole vector; all-reduce by contract.
* **C87** ParMatrix times vector: hypre's matvec by contract, sizes and ParVector wrapping modelled; combined with C76 and C77.
* **C88** In-place updates: each acts on the diagonal and off-diagonal parts; lifted to the global coefficients.
* **C89** l1 norms: row loops as sums over the stored row; the bound by 2 a x y <= |a| (x x + y y) and symmetry.
* **C90, C91** Vector storage: a heap of blocks with pointers; simulation by lists of values, invariant that vectors own distinct
  live blocks.
* **C92, C93** SparseSolver: UMFPACK by contract on the transposed column form; solvers as objects with a table of
  factorisations, simulated by a list of matrices.
* **C94, C95** PowerIterate and AdjToLaplacian: loops as written; powers of the matrix, Rayleigh quotients and the Laplacian of the
  graph are defined separately; convergence by Cauchy-Schwarz.
* **C96** QR_eig and symmetrize: the passes as written on top of the QR model of C67; convergence by weighted Frobenius sums.
* **C97, C98** ParVector and ParMatrix as owners: a memory of cells, hypre objects with their ownership flags, pointers; a general
  argument (`Lawful`) that a class whose constructor, copy, swap and destructor keep to their own cells behaves as its values in every program.
* **C99, C100** the solver classes as owners of a hypre solver, their function pointers and settings; which preconditioner PCG applies.  The matrix
  and the base operator inside a solver are values (C98 justifies this); what the library computes is not modelled.
* **C101, C102** the special members of the sequential classes, as programs over lists of objects; solvers with pointers into a memory of operators.
* **C103 – C105** the same model with other arithmetic: no laws at all (C103), and every operation followed by a rounding with a bounded
  relative error (C104, C105; `Spec/Round.lean`).  The model's functions only ask for operations, not laws, so they are run with
  `r.add`, `r.mul`, ... of a rounding `r`.  Not in this (but in C129, C130): overflow, underflow, infinities and NaN; fused operations and wider
  intermediate results; BLAS products, whose order is not known.
* **C106** the products of all matrix classes once more on one memory (`Model/Alias.lean`), so that the result can share elements with the
  argument: nothing shared is as if separate (a simulation between the two models), the same view twice is characterised.
* **C107** what `Operator` itself defines (`Model/Operator.lean`: sizes, resizing and returning forms, `InnerProduct`, the throwing `MultAT`) for any
  operator that computes a given function, and the free operators on vectors.
* **C108** the functions that compute sizes, counts and positions once more with a checked `int` (`Model/Width.lean`); which sizes are safe, and that
  the others overflow.
* **C109** the templates once more with three element types (`Model/Mixed.lean`): which conversions are made, and what they cost with an `int` result.
* **C110** the text that the Print functions write, and what can be read off it. **C111** the three Show functions of ArgParser (`Model/Print.lean`:
  an output stream is its text, its width and the part of its formatting state that the code sets).
* **C112** functions called with one object as argument and result (`Model/Self.lean`: the loops once more with one state instead of two).
* **C113** `double` as text (`Model/Digits.lean`: `%.{p}g` and `strtod` with exact rounding; a finite double is a rational number, so zero has no
  sign): what the readers get back from the files of the writers. `Spec/Digits.lean` says what a double, a decimal number with p digits and a nearest
  number is, without the algorithms.
* **C114** LOBPCG (`Model/Lobpcg.lean`): hypre's iteration is a tree of requests for products, which the functions given to it answer.
* **C115** Random vectors and matrices (`Model/Random.lean`): the engine is a seed function and a draw function; wide matrices have
  dependent columns.
* **C116** The test programs of the direct solver and of the partitioner (`Model/RingTest.lean`): `Near` and `eliminated` in
  `Spec/RingTest.lean` say what the matrices are.
* **C117** Writing through the arrays and views of a sparse matrix (`Model/Access.lean`): `Csr.OneEntry` says that one entry is replaced.
* **C118** Resizing a dense matrix and the forms with fewer arguments (`Model/Access.lean`).
* **C119** The test program of the parallel module (`Model/ParTest.lean`): `LowestOn`, `LaplaceOn` and `ConnectedOn` (`Spec/ParTest.lean`) say what
  the eigenvalues and the graph are; `Par.FindsLowest` is what is expected of hypre.
* **C120** The sparse example as a whole (`Model/SparseMain.lean`): `Csr.Meet` says that two vertices have a common edge.
* **C121** Communication packages, `nnz` and the checks that throw (`Model/ParPkg.lean`).
* **C122** What hypre is told by the constructors and setters of its solvers (`Model/ParSettings.lean`).
* **C123** The tests of `tests/test_linalg.cpp` as programs (`Model/LinalgTest.lean`).
* **C124** The approximation CG and PCG return is the best one among the combinations of the start and the Krylov vectors; rates of convergence and numbers of iterations (`Props/CgRate.lean`, `Props/CgIter.lean`, `Props/MinresIter.lean`, `Proof/Spectral.lean`).
* **C125** The basic dense and vector examples as programs (`Model/ExampleMains.lean`).
* **C126** What `ParMatrix::Mult` tells hypre about its vectors (`Model/ParTold.lean`).
* **C127** Krylov solvers on views that share memory, solving in place (`Model/SolverViews.lean`).
* **C128** NaN and infinities: the comparisons of the code written out as they are (`Model/Floats.lean`), over any type with the NaN rules
  (`Spec/Floats.lean`) and over an ordered field with NaN and infinities added; the exact models are shown to be a part of it (`Props/FloatsExact.lean`).
* **C129** The residual of PCG with rounding: `Spec/RoundFlo.lean` has the laws (finite results are near the exact ones), `Spec/Ieee.lean` is IEEE 754 double
  precision as a type that can be run (nearest, ties to even, gradual underflow, overflow, infinities, NaN; without the sign of zero), with the
  rounding function of C113.  `PCGSolver::Mult` is the model of C128 (`Pcg.multF`), not a second one.
* **C130** Products, norms and averages with overflow and underflow: the bounds of C104 for any type with the laws of rounding and range, with the
  conditions under which the result is finite; the norm in double precision (`Model/Norm.lean`).
* **C131** Divisors that are zero or NaN: what the assertions on divisors let through, and the triangular factorisation and solves of
  examples/dense/dense_lu.cpp, which test nothing (`Model/FltDiv.lean`).
* **C132** Whole numbers in double precision: the products, sums, triangular factorisation and solves are exact up to `2 ^ 53` (`Spec/Whole.lean`).
* **C133** The readers with 32-bit `int`, 64-bit `size_t` and memory that runs out (`Model/IoRange.lean`): when they agree with the unbounded ones, and what happens otherwise.
* **C134** Virtual `Mult` and `L2Norm` of `ParVector` behind `VectorView` (`Model/Dispatch.lean`): which functions sum over all processes, which over one, which twice.
* **C135** `L2Norm` and `Normalize` in double precision with the correctly rounded square root (`Spec/DblSqrt.lean`): error bounds, and the assertion of the test.
* **C136** `ParMatrix::Mult(ParMatrix)` with OpenMP threads (`Model/ParThreads.lean`): every interleaving of the rows gives the result of one thread.
* **C137** Builds with NDEBUG (`Model/Release.lean`): views, InnerProduct, Mult and MultAT of sparse and coordinate matrices, the array constructor, Add, ToSparse.
* **C138** Division by a zero norm with NDEBUG (`Model/ReleaseFlt.lean`): `/=`, Normalize, MINRES, PMINRES.
* **C139** DenseMatrix with NDEBUG (`Model/ReleaseDense.lean`): element access, products, += and -=, Invert.
* **C140** products and updates of SparseMatrix with NDEBUG (`Model/ReleaseSparse.lean`).
* **C141** LilMatrix with NDEBUG (`Model/ReleaseLil.lean`, `Model/ReleaseLil2.lean`): Add, AddSym, ToSparse, Mult, MultAT.
* **C142** BlockMatrix with NDEBUG (`Model/ReleaseBlock.lean`): constructor, GetBlock, SetBlock, Transpose, Combine, Mult, MultAT.
* **C143** Row access, AddDiag(val), GetSubMatrix and eliminations with NDEBUG (`Model/ReleaseSparse2.lean`); not EliminateCol(marker, x, b).
* **C144** Rows, columns, diagonal and blocks of dense matrices with NDEBUG (`Model/ReleaseDense2.lean`).
* **C145** Extremes, GetSubVector, GetRow(rows), HStack and Timer with NDEBUG (`Model/ReleaseMisc.lean`).
* **C146** AddSubMatrix and SetSubMatrixTranspose with NDEBUG (`Model/ReleaseDense3.lean`).
* **C147** EliminateCol(marker, x, b) with NDEBUG (`Model/ReleaseElim.lean`).
* **C148** Divisions, combinations and parts of vectors with NDEBUG (`Model/ReleaseView2.lean`).
* **C149** Scaling by inverses with NDEBUG (`Model/ReleaseScale.lean`).
* **C150** Block operators with NDEBUG; a call with too long an input spoils later calls (`Model/ReleaseBlockOp.lean`).
* **C151** Adding lists to a CooMatrix and permuting it with NDEBUG (`Model/ReleaseCoo.lean`).
* **C152** The constructor of ArgParser with NDEBUG (`Model/ReleaseArgs.lean`).

## 5. What is modelled and what is not

Modelled statement by statement (each definition in `Verif/Model/` cites file and lines):

* `include/sparsematrix.hpp`, `include/coomatrix.hpp`, `include/lilmatrix.hpp`: all computing members.
* `include/densematrix.hpp`, `src/densematrix.cpp`: all computing members; SVD, QR and Invert with LAPACK by contract.
* `include/vector.hpp`, `include/vectorview.hpp`, `src/vectorview.cpp`: access, views, element-wise updates, reductions, norms;
  for Vector also construction, copying, moving, assignment, swap and destruction with storage as a heap.
* `include/blockmatrix.hpp`, `include/blockvector.hpp`, `src/blockoperator.cpp`.
* `src/solvers.cpp`: constructors, SetOperator, PCG (CG), MINRES and PMINRES, and the one-call functions.
* `include/parser.hpp`, `src/parser.cpp`: readers and writers (text as tokens, binary as bytes).
* `src/argparser.cpp` (parsing and typed access), `src/timer.cpp`, `src/eigensolver.cpp` (LAPACK by contract).
* `modules/partition` (METIS by contract).
* `modules/sparsesolver` (UMFPACK by contract), with construction, copying, moving, assignment and destruction.
* `modules/parlinalgcpp`: GenerateOffsets, SortColumnMap, ParAdd, ParSub, ParSplit, the ParMatrix constructors, Mult of two
  matrices, Transpose, RAP(R, A, P) and RAP(A, P), ParVector, products with vectors, in-place updates, the l1 row norms (hypre communication by contract; the code is modelled for one OpenMP thread, which is how it is
  written unless HYPRE_USING_OPENMP is defined, and for the product of two matrices also for any number of threads, with rows as steps that interleave in any order).
* `examples/dense`: LU and QR routines; dense_basics.cpp and `examples/vector/vector_ops.cpp` as whole programs. `examples/sparse/sparse_basics.cpp`: PowerIterate and AdjToLaplacian.
  `modules/parlinalgcpp`: storage and hypre objects of ParVector, ParOperator and ParMatrix (create and destroy functions of hypre 2.11-2.14 by
  contract: what they allocate, and what their ownership flags make them free).
  `modules/parlinalgcpp/src/parsolvers.cpp`, `parsmoother.cpp`: construction, copying, moving, destruction and products of ParSolver, BoomerAMG,
  ParaSails, ParCG, ParDiagScale, ParSmoother, with the hypre functions by contract (a solver handle must exist to be set up, used or destroyed;
  it must be set up before it is used; `HYPRE_ParCSRPCGSetPrecond(solver, precond, precond_setup, precond_solver)`); LOBPCG with
  hypre's iteration as a parameter.
  the copy and move constructors, assignments and swaps of SparseMatrix, DenseMatrix, CooMatrix, LilMatrix, BlockMatrix, BlockVector,
  BlockOperator (`Model/Plain.lean`) and of Solver, PCGSolver, MINRESSolver, PMINRESSolver with `SetOperator` and `SetPreconditioner`
  (`Model/SolverObj.lean`; operators are pure functions at addresses that are never used twice);
  `examples/dense/dense_qr.cpp`: QR_eig; `examples/include/ex_utilities.hpp`: symmetrize, random_mat; test_LU, time_LU, LU, test_QR, time_QR, QR
  without printing and timing; `tests/test_linalg.cpp` and the test programs of the modules sparsesolver, partition and parlinalgcpp
  without printing and reading files; `Randomize` with the random engine as a parameter.

Not modelled:

* Output that fails; locales; the sign of a zero in files. (The conversion of values to text is a parameter of C110; C113 supplies the one of `double`
  in the default notation.)
* `Randomize`: a random vector is an arbitrary vector (C84).
* Floating-point rounding (but C104, C105, C129–C132, C135), integer overflow (but C108, C133), allocation failure (but C133), threads (but C136).
* Preprocessor variants: the model follows the default build (NDEBUG not defined, but C137 to C152; HYPRE_NO_GLOBAL_PARTITION defined).
* Where a class is not in `Model/Own.lean`, `Life.lean`, `Handles.lean`, `Plain.lean` or `SolverObj.lean`, its copies are free and lifetime errors are
  invisible.

## 6. Where the code disagrees with its properties

Proved negations (theorem names end in `_false` or are listed in the notes of `MANIFEST.json`):

* ToDense, TransposeDense and GetDiag keep the last of several stored entries, Mult adds them (C06, C10); AddDiag adds once per
  stored diagonal entry (C10).
* The CSR constructor accepts row pointers that are not monotone or do not end at nnz (C11).
* Coo/Lil MultAT assert the sizes of the untransposed product (C21).
* Coo/Lil EliminateZeros compare with a strict `<` and keep zeros at tolerance 0 (C23).
* An unsized LilMatrix has one row too many and converts to a malformed SparseMatrix (C25); SetSize does not resize (C26).
* BlockMatrix::Transpose moves the blocks without transposing them (C40).
* PCG reports up to 2 iterations when max_iter is 1, MINRES reports max_iter + 1 (C43); PCG's indefiniteness check compares with
  -1e12 (C45); MINRES started at the exact solution fails an assertion (C46).
* WriteBinary takes `&v[0]` of an empty vector, truncated binary files are accepted (C48, C49).
* ParAdd adds the first stored entry of each off-process column unscaled (C65); ParSplit assumes a symmetric pattern and
  values (C66).
* `ParVector::Init` asserts start < total, so the last process may not own an empty range, and reads `partition_[2]` after asserting
  only two elements (C85); products that return a ParVector fail with it (C87).
* The l1 row norms read the first value of the next row, or past the end, for a row that stores no own column (C89); the default
  smoother type Jacobi (0) is an option that computes nothing, so all norms are 0 and hypre's error flag is set (C89_other_options).

* Assigning a non-constant view to a Vector selects `VectorView::operator=`, which asserts equal sizes, so
  `v = A.GetColView(0)` into an empty vector fails (C91).

* SparseSolver's move constructor, and its copy constructor for a matrix without entries, leave `numeric_` unset, so destroying
  the moved-from object or the copy frees an indeterminate pointer (C93).

* PowerIterate asserts (division by a zero norm) when the operator maps an iterate to zero, e.g. for a zero matrix (C94);
  AdjToLaplacian asserts for a vertex whose row does not store its diagonal, e.g. an isolated vertex (C95).

* QR_eig never diagonalises a symmetric matrix such as [[0,1],[1,0]] whose eigenvalues have equal size and opposite sign (C96_stuck);
  it asserts for singular matrices (C96_singular), and symmetrize asserts for wide matrices (C96_symmetrize_wide).

* Copying a ParVector that was default-constructed or moved from calls hypre with no communicator, and reads an unset global size
  (C97_copy_empty).  `Vector::SetSize`, inherited by ParVector, may move the elements and leaves `pvect_` with freed storage (C97_resize).
* `ParOperator(const ParOperator&)` tests `comm_ > 0`, which is not how to tell a communicator from none: in MPICH derived communicators are
  negative numbers, so the copy of a ParMatrix on one has null `x_` and `b_`, and `Mult` on views follows them (C98_copy_negative).

* `ParSolver(ParSolver&&)` and `ParSmoother(ParSmoother&&)` leave members unset and swap them into their argument, whose destructor then calls
  an unset function pointer or frees an unset pointer (C99_move_base).
* Copies of hypre solvers: a copied BoomerAMG has a solver that was never set up (C99_copy_boomer); a copied ParaSails has none, and destroying
  it passes null to `HYPRE_ParaSailsDestroy` (C99_copy_sails); a copied ParCG has the tolerance and iteration limit of the library (C99_copy_cg).
  All four copy constructors are `noexcept` and compile silently, so passing a solver by value is enough.
* `ParCG(A, M)` calls `HYPRE_ParCSRPCGSetPrecond(solver, M.GetSetupFn(), M.GetSolveFn(), M.GetSolver())`: the two functions are the wrong way
  round, so each pass sets `M` up instead of applying it (C100_order).  `EnableDiagScaling` and LOBPCG in the same file have them right.

* The move constructors of CooMatrix and LilMatrix default-initialise `size_set_` to nothing and swap it: an indeterminate `bool` is read
  (C101_move_strict) and lands in the moved-from matrix, whose sizes then depend on it (C101_coo_left, C101_lil_left).
* A moved-from BlockMatrix has no offsets, and `Transpose` reads `offsets.size() - 1` elements (C101_block_left).
* Assigning a Vector to a BlockVector, or `SetSize`, leaves the offsets: `GetBlock` then views past the end (C101_blocks_stale).
* Copying a BlockOperator does not copy `tmp_`; if a block is a solver, which reads its output as initial guess, the copy gives another
  result (C101_blockop_guess).
* `Solver::SetOperator` compares with the old operator without checking that there is one: undefined for a default or moved-from solver, and
  if the old operator is gone (C102_set_operator).  MINRES keeps work vectors of the old size if the operator grows in place (C102_resized).

* `lu_decomp` computes the entries of `U` under the diagonal instead of setting them: in double precision they are not always zero
  (C105_not_upper), so `U` is not upper triangular; `L * U` as printed by the example is then off by more than the triangles.

* `Mult(x, x)` and `MultAT(x, x)` are accepted and silently give something else than the product for every matrix class but
  `BlockOperator`: mostly the zero vector (C106_same_zero, C106_same_false).

* `op.Mult(x, x)` with one `Vector` sets the size of its own argument before checking it (src/operator.cpp:60-65): a vector of a wrong size is cut off or
  filled with zeros and accepted (C107_self).  With a separate view of the vector as argument, `SetSize` may free what the view refers to.
* `a / x` (include/vector.hpp:284-293) asserts nothing about zero elements, `x / a` does (C107_scalarOver, C107_scalar).

* Sizes are computed in `int`: `DenseMatrix(46341, 46341)`, `ToDense` of a sparse matrix of that size, and the product of two sparse matrices with
  46341 entries each overflow (C108_dense_new, C108_toDense, C108_outer_32); nothing asserts this.

* `SparseMatrix<int>::Mult(x)` with a `double` vector returns an `int` vector and truncates at every addition; `Mult(x, y)` does not (C109_forms_false).
  `CooMatrix::ToSparse<int>` and `LilMatrix::ToSparse<int>` of the same values differ (C109_coo_lil_false). `A = 0.5` on an `int` matrix passes
  `assert(val != 0)` and sets all entries to zero (C109_fill).

* The printed text of a matrix does not say how large it is (C110_sparse_size_false, C110_lil_size_false); a dense matrix prints numbers from 1000
  on, or from -100 down, without a space before them (C110_dense_space_false).
* `ShowOptions` leaves `std::left` set on the caller's stream (C111_left_false).
* PCG with `max_iter = n` does `n - 1` passes, one too few for an n-dimensional system even in exact arithmetic; the project's own test uses
  `max_iter = n` (C44_limit_false).

* Nothing stops a caller from passing an object as its own result. `A.Mult(D, D)` then gives zero (C112_mult_square), `D.Transpose(D)` loses the
  part below the diagonal (C112_transpose_iff), and a sparse matrix scaled with itself uses factors it scaled before (C112_scale_false).

* The writers set a precision of 16 digits (`WriteCooList` none, so 6): `0.1 + 0.2` comes back as `0.3` (C113_text_false), the largest double is
  unreadable and cuts off the rest of the file (C113_max_false), `1234567` comes back as `1234570` from a coordinate list (C113_coo_false).

* `MyMatvec` ignores `alpha` and `beta` (C114_matvec_false); `LOBPCG` does not check the size of its vectors (C114_long).

* `time_QR` decomposes matrices with more columns than rows, for which there is no decomposition (C115_timeQR); seeds 0 and 1 give the
  same numbers (C115_seeds, for libstdc++).

* `SparseMatrix::GetIndicesView(i)[-1]` is not rejected and is the last entry of the row before (C117); a column that the matrix does not have
  can be written (C117).
* `DenseMatrix::SetSize` of a matrix with entries keeps the buffer, so the entries move when the number of rows changes (C118).

* `linalgcpp_assert` throws only when NDEBUG is defined, the opposite of what it says (C121); `ParCommPkg(nullptr)` reads before it asserts (C121).

* `ParaSails` hands `load_bal` on through an `int`, so fractions are lost; iteration counts from 2^31 on wrap; its setters do nothing after the constructor with a matrix (C122).

* `test_solvers` gives CG and PCG `max_iter = size`, with which they make one step too few, so the result is not the solution even without rounding (C123).

* `examples/dense/dense_basics.cpp` shows element (2, 2) under the label `d_1 (2, 3)` and ten times `d_1` under `10.0 * d0` (C125_data).
* `test_vector` prints a comparison labelled "v3_copy == v3 normalized" that compares with threes and is always true (C123_vectorRest).

* `ParOperator` makes its input vector from the row starts and its output vector from the column starts, so `ParMatrix::Mult` of a rectangular matrix gives
  hypre wrong sizes (C126).

* `operator==` of vectors and dense matrices takes NaN for equal to every number (C128_eq_nan, C128_eq_false, C128_dense_nan).
* `SparseMatrix::EliminateZeros` drops NaN entries, `CooMatrix` and `LilMatrix` keep them (C128_eliminate_sparse, _coo, _lil).
* `assert(val == val); // is finite` in `Add` accepts infinities (C128_add).
* MINRES and PMINRES go on after NaN and return NaN without an error (C128_minres_nan, C128_pminres_nan); PCG throws.  PCG started at the solution
  with absolute tolerance zero divides zero by zero, and returns NaN or throws (C128_pcg_solved).

* PCG tests the updated residual: for `3 x = 1` in double precision it becomes exactly zero while `1 - 3 x` is `2^-54`, so no tolerance below
  that is ever really met (C129_stop_false).

* `L2Norm` does not scale: `Normalize` of `(1e200, 1)` gives `(0, 0)`, and `Normalize` of `(1e-200)` fails `assert(val != 0)` (C130_norm_large,
  C130_norm_small).  For the same reason PCG throws "PCG is not positive definite!" for the identity and the right-hand side `1e200` (C130_pcg).

* `assert(scale != 0)` lets NaN through: `InverseScaleRows` with NaN makes the row NaN (C131_nan).  `val / vect` has no assertion at all (C131_over).
  `lu_decomp` and `solve_lu` do not look at the pivots: for `[[0, 1], [1, 0]]` they return NaN without an error (C131_lu_false).

* CG with the absolute tolerance zero, started at a solution in whole numbers, computes `0 / 0` in double precision as well (C132_pcg): NaN or an exception.

* A list of entries or edges ends silently at the first number that does not fit an `int` (C133_stop, C133_lost); `ReadCSR` of a file that starts with `-1` calls `back()` on an empty
  vector (C133_csr_wrap).

* `ParMult(comm, x, y)` and `ParL2Norm(comm, x)` of a `ParVector` sum over the processes twice (C134_parMult, C134_parL2Norm_wrong); `Normalize` of a `ParVector` normalises the elements of
  each process separately (C134_normalize) and asserts when one process has only zeros (C134_normalize_rejects).

* In double precision `Normalize` does not give norm 1 exactly, nor is it idempotent (C135_normalize_wrong); it is within the bound tests/test_linalg.cpp:778 asserts (C135_assert).

* `RowSizes` divides the rows by `hypre_NumThreads()`, asked before the parallel region, while the other two regions ask `hypre_NumActiveThreads()` inside: if
  OpenMP gives the first region fewer threads, rows are not counted (C136_fewer_threads).

* Without assertions, assigning a longer view overwrites what follows the shorter one, and a shorter right operand is read past its end (C137).

* Without assertions, MINRES and PMINRES started at the solution overwrite it with NaN, for every tolerance (C138); with assertions they abort (C46).

* Without assertions, DenseMatrix::Invert of a singular matrix returns without any sign of failure, and Mult with a second factor that has too many rows silently ignores the surplus (C139).

* Without assertions, SparseMatrix::PermuteCols with an entry that is not a column leaves a matrix whose next product reads outside the vector (C140).

* Without assertions, LilMatrix::Add(-1, j, v) on a matrix without a size empties it (`resize(0)`) and then writes before its rows (C141).

* Without assertions, BlockMatrix::Transpose of a block matrix with rectangular blocks returns blocks of the wrong shape, and the product with the result reads past their row pointers (C142).

Seen while reading, not stated as a property:

* `test_timer` counts in an uninitialised `volatile double` (tests/test_linalg.cpp); `test_coo` prints the product with `x` under the label of a transposed product.
* `VectorView<double>::Normalize` is specialised in a source file and the header does not declare that: a program that calls it from
  another file is ill-formed, and may get the general version, which throws.
* `VectorView<T>::Randomize` is virtual and calls a function that exists for `double` and `int` only.
* `GetSubMatrix` with duplicate columns keeps the last one; dense `GetSubMatrix` rejects empty ranges; `HStack` of zero-row blocks
  fires an assertion; `MaxNorm` of SparseMatrix sums.
* dgemm is called with leading dimension 0 for operands without rows, which BLAS rejects.
* EigenSolver reads past the end if `max_evect > n`, does not check that the matrix is square, ignores `info_`.
* PCG with zero tolerances and an exact start divides 0/0; MINRES compares |eta| with squared tolerances.
* Vector `operator==` is tolerance based and not transitive; `VectorView::operator[]` does not check for negative indices;
  `BlockVector(view, offsets)` does not check that the offsets fit; `Mean` of an empty vector divides by zero.
* `ReadTable` on an empty file, and ReadCSR/ReadMTX/ReadBinaryMat on a bad header, use uninitialised values; readers without a given
  size drop trailing empty rows and columns; `WriteMTX` writes a title line with one percent sign; `WriteCooList` converts values to
  `double`.
* ArgParser: a flag with a single dash is taken as the value of the option before it (C57_single_dash).
* `DenseMatrix::QR` passes an array of min(rows, cols) pivots where LAPACK writes cols (C81).
* MakeAdjacencyInfo reserves a negative size (throws) when nnz <= rows - 2.
* ParOperator reads `starts[1]` before asserting the size; ParCG passes setup and solve of the preconditioner in the wrong order; the L1 norms assume that each row starts with its diagonal entry.
* A default `PCGSolver` or `PMINRESSolver` leaves its preconditioner pointer unset; `SetPreconditioner` and `SetMaxIter` check nothing; a
  default ParVector leaves its global size unset; `ParVector(comm, val, part)` prints a debugging line; ParMatrix::Mult sets its output
  to 0 first, so a vector given as both input and output yields 0.
