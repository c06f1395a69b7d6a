import Verif.Model.Sparse
import Verif.Model.View

/-!
# A matrix or vector passed as its own argument or result

Functions of `DenseMatrix`, `SparseMatrix` and `VectorView` that read one object through a `const` reference and write another, called
with the same object for both.  Nothing in the signatures forbids it.  Each definition is the code once more, with one state instead of
two; after `SetSize` the sizes are the new ones for both.
-/

namespace Linalg
open Cpp

variable {α : Type}

namespace Dense

/-- `D.Transpose(D)` (src/densematrix.cpp:147-158). -/
def transposeSelf [Zero α] (D : Dense α) : Res (Dense α) := do
  let D ← D.setSize D.cols D.rows
  forUp 0 D.rows D (fun i D =>
    forUp 0 D.cols D (fun j D => do
      let x ← D.get i j
      D.put j i x))

/-- `D.GetSubMatrix(start_i, start_j, end_i, end_j, D)` (src/densematrix.cpp:451-471); with `start_j = 0`, `end_j = cols` it is
`D.GetRow(start, end, D)` (380-383), with `start_i = 0`, `end_i = rows` it is `D.GetCol(start, end, D)` (429-432). -/
def getSubMatrixSelf [Zero α] (D : Dense α) (si sj ei ej : Int) : Res (Dense α) := do
  D.checkRange si sj ei ej
  let numRows := ei - si
  let numCols := ej - sj
  let D ← D.setSize numRows numCols
  forUp 0 numCols D (fun j D =>
    forUp 0 numRows D (fun i D => do
      let x ← D.get (i + si) (j + sj)
      D.put i j x))

/-- `D.GetSubMatrix(rows, cols, D)` (src/densematrix.cpp:481-500). -/
def getSubMatrixIdxSelf [Zero α] (D : Dense α) (rows cols : List Int) : Res (Dense α) := do
  let D ← D.setSize rows.length cols.length
  let D := D.fill 0
  forUp 0 (cols.length : Int) D (fun j D => do
    let col ← rd cols j
    forUp 0 (rows.length : Int) D (fun i D => do
      let row ← rd rows i
      let x ← D.get row col
      D.put i j x))

/-- `D.GetRow(rows, D)` (src/densematrix.cpp:394-411). -/
def getRowIdxSelf (D : Dense α) (rows : List Int) : Res (Dense α) := do
  cassert (D.cols = D.cols)
  cassert (D.rows = (rows.length : Int))
  forUp 0 (rows.length : Int) D (fun i D => do
    let row ← rd rows i
    forUp 0 D.cols D (fun j D => do
      let x ← D.get row j
      D.put i j x))

/-- `D.SetSubMatrix(start_i, start_j, end_i, end_j, D)` (src/densematrix.cpp:507-525). -/
def setSubMatrixSelf (D : Dense α) (si sj ei ej : Int) : Res (Dense α) := do
  D.checkRange si sj ei ej
  let numRows := ei - si
  let numCols := ej - sj
  forUp 0 numCols D (fun j D =>
    forUp 0 numRows D (fun i D => do
      let x ← D.get i j
      D.put (i + si) (j + sj) x))

/-- `D.SetRow(row, D.GetColView(col))` (include/densematrix.hpp:779-789, 700-707): the view shows column `col` of `D`. -/
def setRowColSelf (D : Dense α) (row col : Int) : Res (Dense α) := do
  let v ← D.getColView col
  cassert (row ≥ 0 ∧ row < D.rows)
  cassert (v.size = D.cols)
  forUp 0 D.cols D (fun i D => do
    let x ← v.get D.data i
    D.put row i x)

/-- `D += D` (src/densematrix.cpp:278-291) and `D -= D` (263-276). -/
def zipUpdateSelf (f : α → α → α) (D : Dense α) : Res (Dense α) := do
  cassert (D.rows = D.rows)
  cassert (D.cols = D.cols)
  let data ← forUp 0 (D.rows * D.cols) D.data (fun i data => do
    let a ← rd data i
    let b ← rd data i
    wr data i (f a b))
  .ok { D with data := data }

end Dense

namespace Csr

/-- `A.Mult(D, D)` (include/sparsematrix.hpp:643-665). -/
def multDenseSelf [Zero α] [Add α] [Mul α] (A : Csr α) (D : Dense α) : Res (Dense α) := do
  cassert (D.rows = A.cols)
  let D ← D.setSize A.rows D.cols
  let D := D.fill 0
  forUp 0 D.cols D (fun k D =>
    forUp 0 A.rows D (fun i D => do
      let val ← A.forRow i (0 : α) (fun j val => do
        let d ← rd A.data j
        let c ← rd A.indices j
        let x ← D.get c k
        .ok (val + d * x))
      D.put i k val))

/-- `A.MultAT(D, D)` (include/sparsematrix.hpp:667-685). -/
def multATDenseSelf [Zero α] [Add α] [Mul α] (A : Csr α) (D : Dense α) : Res (Dense α) := do
  cassert (D.rows = A.rows)
  let D ← D.setSize A.cols D.cols
  let D := D.fill 0
  forUp 0 D.cols D (fun k D =>
    forUp 0 A.rows D (fun i D =>
      A.forRow i D (fun j D => do
        let c ← rd A.indices j
        let d ← rd A.data j
        let x ← D.get i k
        let old ← D.get c k
        D.put c k (old + d * x))))

/-- `A.MultCT(D, D)` (include/sparsematrix.hpp:687-709). -/
def multCTDenseSelf [Zero α] [Add α] [Mul α] (A : Csr α) (D : Dense α) : Res (Dense α) := do
  cassert (D.rows = A.cols)
  let D ← D.setSize D.cols A.rows
  let D := D.fill 0
  forUp 0 D.cols D (fun k D =>
    forUp 0 A.rows D (fun i D => do
      let val ← A.forRow i (0 : α) (fun j val => do
        let d ← rd A.data j
        let c ← rd A.indices j
        let x ← D.get c k
        .ok (val + d * x))
      D.put k i val))

/-- `A.ScaleRows(A)` (include/sparsematrix.hpp:1259-1263, 1282-1296): the factors are a reference to `data_`. -/
def scaleRowsSelf [Mul α] (A : Csr α) : Res (Csr α) := do
  cassert ((A.data.length : Int) = A.rows)
  let data ← forUp 0 A.rows A.data (fun i data => do
    let s ← rd data i
    A.forRow i data (fun j data => do
      let d ← rd data j
      wr data j (d * s)))
  .ok { A with data := data }

/-- `A.ScaleCols(A)` (include/sparsematrix.hpp:1265-1269, 1298-1310). -/
def scaleColsSelf [Mul α] (A : Csr α) : Res (Csr α) := do
  cassert ((A.data.length : Int) = A.cols)
  let data ← forUp 0 A.rows A.data (fun i data =>
    A.forRow i data (fun j data => do
      let c ← rd A.indices j
      let s ← rd data c
      let d ← rd data j
      wr data j (d * s)))
  .ok { A with data := data }

/-- `A.InverseScaleRows(A)` (include/sparsematrix.hpp:1271-1275, 1312-1327). -/
def inverseScaleRowsSelf [Zero α] [Div α] [DecidableEq α] (A : Csr α) : Res (Csr α) := do
  cassert ((A.data.length : Int) = A.rows)
  let data ← forUp 0 A.rows A.data (fun i data => do
    let s ← rd data i
    cassert (s ≠ 0)
    A.forRow i data (fun j data => do
      let d ← rd data j
      wr data j (d / s)))
  .ok { A with data := data }

/-- `A.InverseScaleCols(A)` (include/sparsematrix.hpp:1277-1281, 1329-1345). -/
def inverseScaleColsSelf [Zero α] [Div α] [DecidableEq α] (A : Csr α) : Res (Csr α) := do
  cassert ((A.data.length : Int) = A.cols)
  let data ← forUp 0 A.rows A.data (fun i data =>
    A.forRow i data (fun j data => do
      let c ← rd A.indices j
      let s ← rd data c
      cassert (s ≠ 0)
      let d ← rd data j
      wr data j (d / s)))
  .ok { A with data := data }

end Csr

/-- `x.GetSubVector(indices, x)` (include/vectorview.hpp:351-365). -/
def Vec.getSubVectorSelf [Zero α] (x : List α) (indices : List Int) : Res (List α) := do
  let x ← setSize x indices.length 0
  forUp 0 (indices.length : Int) x (fun i x => do
    let k ← rd indices i
    cassert (k ≥ 0)
    cassert (k < x.length)
    let a ← vrd x k
    vwr x i a)

end Linalg
