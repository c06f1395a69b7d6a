import Verif.Model.ReleaseSparse
import Verif.Model.Access

/-!
# Sparse matrices with and without NDEBUG, the rest

Row access, submatrices and eliminations, as in `Model/Sparse` and `Model/Access`, with the build as a parameter.
-/

namespace Linalg
namespace Rel
open Cpp

variable {α : Type}

/-- `GetIndices(int row)` (include/sparsematrix.hpp:960-970). -/
def getIndices (b : Build) (A : Csr α) (row : Int) : Res (List Int) := do
  b.assert (row ≥ 0 ∧ row < A.rows)
  let s ← rd A.indptr row
  let e ← rd A.indptr (row + 1)
  Csr.slice A.indices s e

/-- `GetData(int row)` (include/sparsematrix.hpp:1002-1012). -/
def getData (b : Build) (A : Csr α) (row : Int) : Res (List α) := do
  b.assert (row ≥ 0 ∧ row < A.rows)
  let s ← rd A.indptr row
  let e ← rd A.indptr (row + 1)
  Csr.slice A.data s e

/-- `GetIndicesView(int row)` (include/sparsematrix.hpp:970-1000), both overloads; the second assertion is the one of
`VectorView(T*, int)` (include/vectorview.hpp:202-208). -/
def getIndicesView (b : Build) (A : Csr α) (row : Int) : Res View := do
  b.assert (row ≥ 0 ∧ row < A.rows)
  let start ← rd A.indptr row
  let stop ← rd A.indptr (row + 1)
  b.assert (stop - start ≥ 0)
  .ok ⟨start, stop - start⟩

/-- `AddDiag(T val)` (include/sparsematrix.hpp:820-835). -/
def addDiagVal [Add α] (b : Build) (A : Csr α) (val : α) : Res (Csr α) := do
  b.assert (A.rows = A.cols)
  let data ← forUp 0 A.rows A.data (fun i data =>
    A.forRow i data (fun j data => do
      let c ← rd A.indices j
      if c = i then
        let d ← rd data j
        wr data j (d + val)
      else .ok data))
  .ok { A with data := data }

/-- `GetSubMatrix(rows, cols, marker)` (include/sparsematrix.hpp:846-905). -/
def getSubMatrixMarker [Zero α] (b : Build) (A : Csr α) (rows cols marker : List Int) : Res (Csr α × List Int) := do
  b.assert ((marker.length : Int) ≥ A.cols)
  let outIndptr := List.replicate (rows.length + 1) (0 : Int)
  let outIndptr ← wr outIndptr 0 0
  let marker ← forUp 0 (cols.length : Int) marker (fun i marker => do
    let c ← rd cols i
    wr marker c i)
  let st ← forUp 0 (rows.length : Int) ((0 : Int), outIndptr) (fun i st => do
    let row ← rd rows i
    b.assert (row < A.rows)
    let n ← A.forRow row st.1 (fun j n => do
      let c ← rd A.indices j
      let m ← rd marker c
      if m ≠ -1 then .ok (n + 1) else .ok n)
    let p ← wr st.2 (i + 1) n
    .ok (n, p))
  let outIndices ← mkVec st.1 (0 : Int)
  let outData ← mkVec st.1 (0 : α)
  let out ← rows.foldlM (fun out row =>
    A.forRow row out (fun j out => do
      let c ← rd A.indices j
      let m ← rd marker c
      if m ≠ -1 then
        let ix ← wr out.2.1 out.1 m
        let d ← rd A.data j
        let dt ← wr out.2.2 out.1 d
        .ok (out.1 + 1, ix, dt)
      else .ok out)) ((0 : Int), outIndices, outData)
  let marker ← cols.foldlM (fun marker i => wr marker i (-1)) marker
  let S ← ofArrays b st.2 out.2.1 out.2.2 rows.length cols.length
  .ok (S, marker)

/-- `GetSubMatrix(rows, cols)` (include/sparsematrix.hpp:837-844). -/
def getSubMatrix [Zero α] (b : Build) (A : Csr α) (rows cols : List Int) : Res (Csr α) := do
  let marker ← mkVec A.cols (-1 : Int)
  let r ← getSubMatrixMarker b A rows cols marker
  .ok r.1

/-- `EliminateRowCol(int index)` (include/sparsematrix.hpp:1363-1382). -/
def eliminateRowCol [Zero α] [One α] (b : Build) (A : Csr α) (index : Int) : Res (Csr α) := do
  b.assert (index ≥ 0)
  b.assert (index < A.rows)
  b.assert (index < A.cols)
  let data ← forUp 0 A.rows A.data (fun row data =>
    A.forRow row data (fun j data => do
      let col ← rd A.indices j
      if row = index ∨ col = index then
        wr data j (if col = row then 1 else 0)
      else .ok data))
  .ok { A with data := data }

/-- `EliminateRowCol(const U& marker)` (include/sparsematrix.hpp:1384-1403). -/
def eliminateRowColMarker [Zero α] [One α] (b : Build) (A : Csr α) (marker : List Bool) : Res (Csr α) := do
  b.assert (A.rows = A.cols)
  b.assert ((marker.length : Int) ≥ A.cols)
  let data ← forUp 0 A.rows A.data (fun row data =>
    A.forRow row data (fun j data => do
      let col ← rd A.indices j
      let mr ← rd marker row
      let m ← if mr then .ok true else rd marker col
      if m then wr data j (if row = col then 1 else 0) else .ok data))
  .ok { A with data := data }

/-- `EliminateCol(const U& marker)` (include/sparsematrix.hpp:1435-1451). -/
def eliminateColMarker [Zero α] (b : Build) (A : Csr α) (marker : List Bool) : Res (Csr α) := do
  b.assert ((marker.length : Int) ≥ A.cols)
  let data ← forUp 0 A.rows A.data (fun row data =>
    A.forRow row data (fun j data => do
      let c ← rd A.indices j
      let m ← rd marker c
      if m then wr data j 0 else .ok data))
  .ok { A with data := data }

end Rel
end Linalg
