import Verif.Model.PowerIter
import Verif.Model.Io

/-!
# The programs of the sparse and vector examples (examples/sparse/sparse_basics.cpp, examples/include/ex_utilities.hpp)
-/

namespace Linalg
open Cpp Io

namespace Example
variable {α : Type}

/-- The matrix of `main` (examples/sparse/sparse_basics.cpp:83-87), from the matrix that was read. -/
def graphLaplacian [Zero α] [One α] [Add α] [Neg α] [Mul α] (vertexEdge : Csr α) : Res (Csr α) := do
  let edgeVertex ← vertexEdge.transpose
  let vertexVertex ← vertexEdge.multSparse edgeVertex
  adjToLaplacian vertexVertex

/-- `main` (examples/sparse/sparse_basics.cpp:81-94): the two numbers that are printed.  `start n` is the random vector of that size. -/
def sparseMain [Field α] [LinearOrder α] (F : Fmt α) (sqrt : α → α) (start : Int → List α) (tol : α) (file : Option Text) : Res (α × Int) := do
  let vertexEdge ← readCooList F file false
  let A ← graphLaplacian vertexEdge
  let eval ← powerIterate sqrt ⟨A.rows, A.cols, A.mult, A.multAT⟩ (start A.rows) 1000 tol
  .ok (eval, A.rows)

/-- `parse_dense(filename)` (examples/include/ex_utilities.hpp:22-26). -/
def parseDense [Zero α] [Add α] (F : Fmt α) (file : Option Text) : Res (Dense α) := do
  let A ← readCooList F file false
  A.toDense

end Example
end Linalg
