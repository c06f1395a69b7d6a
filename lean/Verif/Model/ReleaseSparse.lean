import Verif.Model.ReleaseDense

/-!
# Sparse matrices with and without NDEBUG, continued

Products with sparse and dense matrices and updates in place, as in `Model/Sparse`, with the build as a parameter.  `SetSize` keeps its assertion, which holds
for every well-formed matrix.
-/

namespace Linalg
namespace Rel
open Cpp

variable {α : Type}

/-- `Mult(const SparseMatrix<U>& rhs, std::vector<int>& marker)` (include/sparsematrix.hpp:1100-1168). -/
def multSparseMarker [Zero α] [Add α] [Mul α] (b : Build) (A B : Csr α) (marker : List Int) : Res (Csr α) := do
  b.assert (B.rows = A.cols)
  let marker := List.replicate (resize marker B.cols.toNat 0).length (-1 : Int)
  let outIndptr ← mkVec (A.rows + 1) (0 : Int)
  let outIndptr ← wr outIndptr 0 0
  let st ← forUp 0 A.rows (marker, (0 : Int), outIndptr) (fun i st => do
    let mn ← A.forRow i (st.1, st.2.1) (fun j mn => do
      let l ← rd A.indices j
      B.forRow l mn (fun k mn => do
        let c ← rd B.indices k
        let m ← rd mn.1 c
        if m ≠ i then
          let marker ← wr mn.1 c i
          .ok (marker, mn.2 + 1)
        else .ok mn))
    let p ← wr st.2.2 (i + 1) mn.2
    .ok (mn.1, mn.2, p))
  let outNnz := st.2.1
  let outIndptr := st.2.2
  let marker := List.replicate st.1.length (-1 : Int)
  let outIndices ← mkVec outNnz (0 : Int)
  let outData ← mkVec outNnz (0 : α)
  let st ← forUp 0 A.rows (marker, (0 : Int), outIndices, outData) (fun i st => do
    let rowNnz := st.2.1
    A.forRow i st (fun j st => do
      let l ← rd A.indices j
      B.forRow l st (fun k st => do
        let c ← rd B.indices k
        let m ← rd st.1 c
        let a ← rd A.data j
        let b ← rd B.data k
        if m < rowNnz then
          let marker ← wr st.1 c st.2.1
          let ix ← wr st.2.2.1 st.2.1 c
          let dt ← wr st.2.2.2 st.2.1 (a * b)
          .ok (marker, st.2.1 + 1, ix, dt)
        else
          let old ← rd st.2.2.2 m
          let dt ← wr st.2.2.2 m (old + a * b)
          .ok (st.1, st.2.1, st.2.2.1, dt))))
  ofArrays b outIndptr st.2.2.1 st.2.2.2 A.rows B.cols

/-- `Mult(const SparseMatrix<U>& rhs)` (include/sparsematrix.hpp:1091-1098). -/
def multSparse [Zero α] [Add α] [Mul α] (b : Build) (A B : Csr α) : Res (Csr α) := do
  let marker ← mkVec B.cols (0 : Int)
  multSparseMarker b A B marker

/-- The loops of `Mult` and `MultCT` with a dense matrix; `put` stores one element of the result. -/
def denseLoop [Zero α] [Add α] [Mul α] (b : Build) (A : Csr α) (input : Dense α) (put : Int → Int → α → Dense α → Res (Dense α)) (output : Dense α) :
    Res (Dense α) :=
  forUp 0 input.cols output (fun k output =>
    forUp 0 A.rows output (fun i output => do
      let val ← A.forRow i (0 : α) (fun j val => do
        let d ← rd A.data j
        let c ← rd A.indices j
        let x ← dget b input c k
        .ok (val + d * x))
      put i k val output))

/-- `Mult(const DenseMatrix& input, DenseMatrix& output)` (include/sparsematrix.hpp:643-665). -/
def multDense [Zero α] [Add α] [Mul α] (b : Build) (A : Csr α) (input output : Dense α) : Res (Dense α) := do
  b.assert (input.rows = A.cols)
  let output ← output.setSize A.rows input.cols
  let output := output.fill 0
  denseLoop b A input (fun i k val output => dput b output i k val) output

/-- `MultCT(const DenseMatrix& input, DenseMatrix& output)` (include/sparsematrix.hpp:687-709). -/
def multCTDense [Zero α] [Add α] [Mul α] (b : Build) (A : Csr α) (input output : Dense α) : Res (Dense α) := do
  b.assert (input.rows = A.cols)
  let output ← output.setSize input.cols A.rows
  let output := output.fill 0
  denseLoop b A input (fun i k val output => dput b output k i val) output

/-- `MultAT(const DenseMatrix& input, DenseMatrix& output)` (include/sparsematrix.hpp:667-685). -/
def multATDense [Zero α] [Add α] [Mul α] (b : Build) (A : Csr α) (input output : Dense α) : Res (Dense α) := do
  b.assert (input.rows = A.rows)
  let output ← output.setSize A.cols input.cols
  let output := output.fill 0
  forUp 0 input.cols output (fun k output =>
    forUp 0 A.rows output (fun i output =>
      A.forRow i output (fun j output => do
        let c ← rd A.indices j
        let d ← rd A.data j
        let x ← dget b input i k
        let old ← dget b output c k
        dput b output c k (old + d * x))))

/-- `GetDiag()` (include/sparsematrix.hpp:778-801). -/
def getDiag [Zero α] (b : Build) (A : Csr α) : Res (List α) := do
  b.assert (A.rows = A.cols)
  let diag ← mkVec A.rows (0 : α)
  forUp 0 A.rows diag (fun i diag => do
    let val ← A.forRow i (0 : α) (fun j val => do
      let c ← rd A.indices j
      if c = i then rd A.data j else .ok val)
    wr diag i val)

/-- `AddDiag(const std::vector<T>& diag)` (include/sparsematrix.hpp:803-818). -/
def addDiag [Add α] (b : Build) (A : Csr α) (diag : List α) : Res (Csr α) := do
  b.assert (A.rows = A.cols)
  let data ← forUp 0 A.rows A.data (fun i data =>
    A.forRow i data (fun j data => do
      let c ← rd A.indices j
      if c = i then
        let d ← rd data j
        let e ← rd diag i
        wr data j (d + e)
      else .ok data))
  .ok { A with data := data }

/-- `ScaleRows(const std::vector<T>& values)` (include/sparsematrix.hpp:1283-1297). -/
def scaleRows [Mul α] (b : Build) (A : Csr α) (values : List α) : Res (Csr α) := do
  b.assert ((values.length : Int) = A.rows)
  let data ← forUp 0 A.rows A.data (fun i data => do
    let s ← rd values i
    A.forRow i data (fun j data => do
      let d ← rd data j
      wr data j (d * s)))
  .ok { A with data := data }

/-- `ScaleCols(const std::vector<T>& values)` (include/sparsematrix.hpp:1299-1311). -/
def scaleCols [Mul α] (b : Build) (A : Csr α) (values : List α) : Res (Csr α) := do
  b.assert ((values.length : Int) = A.cols)
  let data ← forUp 0 A.rows A.data (fun i data =>
    A.forRow i data (fun j data => do
      let c ← rd A.indices j
      let s ← rd values c
      let d ← rd data j
      wr data j (d * s)))
  .ok { A with data := data }

/-- `PermuteCols(const std::vector<int>& perm)` (include/sparsematrix.hpp:1347-1361). -/
def permuteCols (b : Build) (A : Csr α) (perm : List Int) : Res (Csr α) := do
  b.assert ((perm.length : Int) = A.cols)
  let ix ← forUp 0 (A.indices.length : Int) A.indices (fun i ix => do
    let c ← rd ix i
    let p ← rd perm c
    b.assert (p ≥ 0)
    b.assert (p < A.cols)
    wr ix i p)
  .ok { A with indices := ix }

/-- `EliminateRow(int index)` (include/sparsematrix.hpp:1405-1415). -/
def eliminateRow [Zero α] (b : Build) (A : Csr α) (index : Int) : Res (Csr α) := do
  b.assert (index ≥ 0)
  b.assert (index < A.rows)
  let data ← A.forRow index A.data (fun j data => wr data j 0)
  .ok { A with data := data }

/-- `EliminateCol(int index)` (include/sparsematrix.hpp:1417-1433). -/
def eliminateCol [Zero α] (b : Build) (A : Csr α) (index : Int) : Res (Csr α) := do
  b.assert (index ≥ 0)
  b.assert (index < A.cols ∨ A.cols = 0)
  let data ← forUp 0 A.rows A.data (fun row data =>
    A.forRow row data (fun j data => do
      let c ← rd A.indices j
      if c = index then wr data j 0 else .ok data))
  .ok { A with data := data }

end Rel
end Linalg
