import Verif.Model.ReleaseDense

/-!
# Scaling by inverses with and without NDEBUG

As in `Model/Dense` and `Model/Sparse`, with the build as a parameter.  The elements are `double`, so that a division always has a result; it is a parameter.
-/

namespace Linalg
namespace Rel
open Cpp

variable {α : Type}

/-- `DenseMatrix::InverseScaleRows(values)` (include/densematrix.hpp:817-829). -/
def dinvRows [Zero α] [DecidableEq α] (b : Build) (div : α → α → α) (D : Dense α) (values : List α) : Res (Dense α) :=
  forUp 0 D.cols D (fun j D =>
    forUp 0 D.rows D (fun i D => do
      let s ← rd values i
      b.assert (s ≠ 0)
      let x ← dget b D i j
      dput b D i j (div x s)))

/-- `DenseMatrix::InverseScaleCols(values)` (include/densematrix.hpp:831-844). -/
def dinvCols [Zero α] [DecidableEq α] (b : Build) (div : α → α → α) (D : Dense α) (values : List α) : Res (Dense α) :=
  forUp 0 D.cols D (fun j D => do
    let s ← rd values j
    b.assert (s ≠ 0)
    forUp 0 D.rows D (fun i D => do
      let x ← dget b D i j
      dput b D i j (div x s)))

/-- `DenseMatrix::operator/=(double val)` (src/densematrix.cpp:323-338). -/
def ddiv [Zero α] [DecidableEq α] (b : Build) (div : α → α → α) (D : Dense α) (val : α) : Res (Dense α) := do
  b.assert (val ≠ 0)
  .ok { D with data := D.data.map (fun d => div d val) }

/-- `SparseMatrix::operator/=(U val)` (include/sparsematrix.hpp:1182-1194). -/
def sdiv [Zero α] [DecidableEq α] (b : Build) (div : α → α → α) (A : Csr α) (val : α) : Res (Csr α) := do
  b.assert (val ≠ 0)
  .ok { A with data := A.data.map (fun d => div d val) }

/-- `SparseMatrix::operator=(U val)` (include/sparsematrix.hpp:1196-1205). -/
def sfill [Zero α] [DecidableEq α] (b : Build) (A : Csr α) (val : α) : Res (Csr α) := do
  b.assert (val ≠ 0)
  .ok { A with data := List.replicate A.data.length val }

/-- `SparseMatrix::InverseScaleRows(values)` (include/sparsematrix.hpp:1313-1328). -/
def sinvRows [Zero α] [DecidableEq α] (b : Build) (div : α → α → α) (A : Csr α) (values : List α) : Res (Csr α) := do
  b.assert ((values.length : Int) = A.rows)
  let data ← forUp 0 A.rows A.data (fun i data => do
    let s ← rd values i
    b.assert (s ≠ 0)
    A.forRow i data (fun j data => do
      let d ← rd data j
      wr data j (div d s)))
  .ok { A with data := data }

/-- `SparseMatrix::InverseScaleCols(values)` (include/sparsematrix.hpp:1330-1345). -/
def sinvCols [Zero α] [DecidableEq α] (b : Build) (div : α → α → α) (A : Csr α) (values : List α) : Res (Csr α) := do
  b.assert ((values.length : Int) = A.cols)
  let data ← forUp 0 A.rows A.data (fun i data =>
    A.forRow i data (fun j data => do
      let c ← rd A.indices j
      let s ← rd values c
      b.assert (s ≠ 0)
      let d ← rd data j
      wr data j (div d s)))
  .ok { A with data := data }

end Rel
end Linalg
