import Verif.Model.Eigen
import Verif.Model.Sparse

/-!
# The eigensolver for sparse matrices (src/eigensolver.cpp)
-/

namespace Linalg
open Cpp

variable {α : Type}

namespace Eigen

/-- `Solve(const SparseMatrix<double>& mat, double rel_tol, int max_evect, EigenPair& eigen_pair)` (src/eigensolver.cpp:52-56). -/
def solveSparse [Zero α] [Mul α] [LE α] [DecidableLE α] (L : Lapack α) (S : Eigen α) (mat : Csr α) (relTol : α) (maxEvect : Int)
    (evals : List α) (evects : Dense α) : Res (Eigen α × List α × Dense α) := do
  let D ← mat.toDense
  S.solve L D relTol maxEvect evals evects

/-- `Solve(const SparseMatrix<double>& mat, double rel_tol, int max_evect)` (src/eigensolver.cpp:39-42). -/
def solveSparseNew [Zero α] [Mul α] [LE α] [DecidableLE α] (L : Lapack α) (S : Eigen α) (mat : Csr α) (relTol : α)
    (maxEvect : Int) : Res (Eigen α × List α × Dense α) := do
  let D ← mat.toDense
  S.solveNew L D relTol maxEvect

end Eigen
end Linalg
