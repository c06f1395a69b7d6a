import Verif.Model.Dense
import Verif.Model.LapackDense
import Verif.Model.Release

/-!
# Dense matrices with and without NDEBUG

The functions of `Model/Dense` and `Model/LapackDense` with the build as a parameter.  `SetSize` inside the products asserts that the
sizes are not negative, which holds for every well-formed matrix; it is kept as it is.
-/

namespace Linalg
namespace Rel
open Cpp

variable {α : Type}

/-- The four assertions of `operator()` (include/densematrix.hpp:586-607). -/
def dcheck (b : Build) (D : Dense α) (row col : Int) : Res Unit := do
  b.assert (row ≥ 0)
  b.assert (col ≥ 0)
  b.assert (row < D.rows)
  b.assert (col < D.cols)

/-- Reading `D(row, col)` (include/densematrix.hpp:597-607). -/
def dget (b : Build) (D : Dense α) (row col : Int) : Res α := do
  dcheck b D row col
  rd D.data (row + col * D.rows)

/-- Assigning `D(row, col) = x` (include/densematrix.hpp:586-595). -/
def dput (b : Build) (D : Dense α) (row col : Int) (x : α) : Res (Dense α) := do
  dcheck b D row col
  let d ← wr D.data (row + col * D.rows) x
  .ok { D with data := d }

/-- `DenseMatrix(int rows, int cols, std::vector<double> data)` (src/densematrix.cpp:46-53). -/
def dofData (b : Build) (rows cols : Int) (data : List α) : Res (Dense α) := do
  b.assert (rows ≥ 0)
  b.assert (cols ≥ 0)
  b.assert ((data.length : Int) = rows * cols)
  .ok ⟨rows, cols, data⟩

/-- `Mult(const VectorView<T>& input, VectorView<U> output)` (include/densematrix.hpp:655-670). -/
def dmult [Zero α] [Add α] [Mul α] (b : Build) (D : Dense α) (input output : List α) : Res (List α) := do
  b.assert ((input.length : Int) = D.cols)
  b.assert ((output.length : Int) = D.rows)
  let output := List.replicate output.length (0 : α)
  forUp 0 D.cols output (fun j output =>
    forUp 0 D.rows output (fun i output => do
      let a ← dget b D i j
      let x ← vrd b input j
      let old ← vrd b output i
      vwr b output i (old + a * x)))

/-- `MultAT(const VectorView<T>& input, VectorView<U> output)` (include/densematrix.hpp:681-698). -/
def dmultAT [Zero α] [Add α] [Mul α] (b : Build) (D : Dense α) (input output : List α) : Res (List α) := do
  b.assert ((input.length : Int) = D.rows)
  b.assert ((output.length : Int) = D.cols)
  forUp 0 D.cols output (fun j output => do
    let val ← forUp 0 D.rows (0 : α) (fun i val => do
      let a ← dget b D i j
      let x ← vrd b input i
      .ok (val + a * x))
    vwr b output j val)

/-- `Mult(const DenseMatrix& input, DenseMatrix& output)` (src/densematrix.cpp:202-209). -/
def dmultD [Zero α] [Add α] [Mul α] (b : Build) (D input output : Dense α) : Res (Dense α) := do
  b.assert (D.cols = input.rows)
  D.gemm input output false false

/-- `MultAT(const DenseMatrix& input, DenseMatrix& output)` (src/densematrix.cpp:211-218). -/
def dmultATD [Zero α] [Add α] [Mul α] (b : Build) (D input output : Dense α) : Res (Dense α) := do
  b.assert (D.rows = input.rows)
  D.gemm input output true false

/-- `MultBT(const DenseMatrix& input, DenseMatrix& output)` (src/densematrix.cpp:220-227). -/
def dmultBTD [Zero α] [Add α] [Mul α] (b : Build) (D input output : Dense α) : Res (Dense α) := do
  b.assert (D.cols = input.cols)
  D.gemm input output false true

/-- `MultABT(const DenseMatrix& input, DenseMatrix& output)` (src/densematrix.cpp:229-236). -/
def dmultABTD [Zero α] [Add α] [Mul α] (b : Build) (D input output : Dense α) : Res (Dense α) := do
  b.assert (D.rows = input.cols)
  D.gemm input output true true

/-- The loop shared by `operator-=` and `operator+=` (src/densematrix.cpp:263-291). -/
def dzip (b : Build) (f : α → α → α) (D other : Dense α) : Res (Dense α) := do
  b.assert (D.rows = other.rows)
  b.assert (D.cols = other.cols)
  let data ← forUp 0 (D.rows * D.cols) D.data (fun i data => do
    let a ← rd data i
    let c ← rd other.data i
    wr data i (f a c))
  .ok { D with data := data }

/-- `Invert()` of a square matrix (src/densematrix.cpp:683-719). -/
def dinvert [Zero α] (b : Build) (L : LapackDense α) (D : Dense α) : Res (Dense α) := do
  let rows := D.rows
  let cols := D.cols
  cassert (rows = cols)
  if rows = 0 ∨ cols = 0 then .ok D
  else
    let ipiv ← mkVec (Min.min rows cols) (0 : Int)
    let f ← Dense.callGetrf L rows cols D.data ipiv
    let lwork := L.getriWork cols
    let work ← mkVec lwork 0
    let r ← Dense.callGetri L cols f.1 f.2 work lwork
    b.assert (r.2 = 0)
    .ok { D with data := r.1 }

end Rel
end Linalg
