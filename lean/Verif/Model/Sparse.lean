import Verif.Model.Dense
import Mathlib.Algebra.Order.Group.Abs
import Mathlib.Algebra.Field.Defs

/-!
# SparseMatrix (include/sparsematrix.hpp)

Transliteration of the CSR matrix class.  Simplification used throughout: the template parameters
`T`, `U`, `V` (element types of the operands) are one type `α` (see `Model/Mixed.lean` for three); `double` intermediates are `α` too.
Vectors passed as `VectorView` are lists and are assumed not to alias each other.
-/

namespace Linalg
open Cpp

/-- `class SparseMatrix<T>` (include/sparsematrix.hpp:436-442): `rows_`, `cols_` come from `Operator`. -/
structure Csr (α : Type) where
  rows : Int
  cols : Int
  indptr : List Int
  indices : List Int
  data : List α
  deriving DecidableEq, Repr

namespace Csr
variable {α σ : Type}

/-- The loop header `for (int j = indptr_[i]; j < indptr_[i + 1]; ++j)` used by almost every method. -/
def forRow (A : Csr α) (i : Int) (s : σ) (body : Int → σ → Res σ) : Res σ := do
  let lo ← rd A.indptr i
  let hi ← rd A.indptr (i + 1)
  forUp lo hi s body

/-- `SparseMatrix()` (include/sparsematrix.hpp:444-449). -/
def empty : Csr α := ⟨0, 0, [0], [], []⟩

/-- `SparseMatrix(int rows, int cols)` (include/sparsematrix.hpp:458-464); the `Operator` base
constructor asserts non-negative sizes (src/operator.cpp:18-23). -/
def zero (rows cols : Int) : Res (Csr α) := do
  cassert (rows ≥ 0)
  cassert (cols ≥ 0)
  let p ← mkVec (rows + 1) (0 : Int)
  .ok ⟨rows, cols, p, [], []⟩

/-- `SparseMatrix(indptr, indices, data, rows, cols)` (include/sparsematrix.hpp:466-483).
`*max_element < cols_` and `*min_element >= 0` are written as conditions on all elements. -/
def ofArrays (indptr indices : List Int) (data : List α) (rows cols : Int) : Res (Csr α) := do
  cassert (rows ≥ 0)
  cassert (cols ≥ 0)
  cassert ((indptr.length : Int) = rows + 1)
  cassert (indices.length = data.length)
  let p0 ← rd indptr 0
  cassert (p0 = 0)
  if indices.length > 0 then
    cassert (∀ c ∈ indices, c < cols)
    cassert (∀ c ∈ indices, c ≥ 0)
  .ok ⟨rows, cols, indptr, indices, data⟩

/-- `SparseMatrix(std::vector<T> diag)` (include/sparsematrix.hpp:485-492). -/
def ofDiag (diag : List α) : Csr α :=
  ⟨diag.length, diag.length, iota (diag.length + 1), iota diag.length, diag⟩

/-- `nnz()` (include/sparsematrix.hpp:911-916). -/
def nnz (A : Csr α) : Int := A.data.length

/-- `RowSize(int row)` (include/sparsematrix.hpp:1207-1213). -/
def rowSize (A : Csr α) (row : Int) : Res Int := do
  cassert (row ≥ 0 ∧ row < A.rows)
  let b ← rd A.indptr (row + 1)
  let a ← rd A.indptr row
  .ok (b - a)

/-- `std::vector<X>(begin(v) + start, begin(v) + end)`: undefined unless `0 ≤ start ≤ end ≤ size`. -/
def slice {β : Type} (v : List β) (start stop : Int) : Res (List β) :=
  if 0 ≤ start ∧ start ≤ stop ∧ stop ≤ v.length then
    .ok ((v.drop start.toNat).take (stop - start).toNat)
  else .error .outOfBounds

/-- `GetIndices(int row)` (include/sparsematrix.hpp:960-970). -/
def getIndices (A : Csr α) (row : Int) : Res (List Int) := do
  cassert (row ≥ 0 ∧ row < A.rows)
  let a ← rd A.indptr row
  let b ← rd A.indptr (row + 1)
  slice A.indices a b

/-- `GetData(int row)` (include/sparsematrix.hpp:1002-1012). -/
def getData (A : Csr α) (row : Int) : Res (List α) := do
  cassert (row ≥ 0 ∧ row < A.rows)
  let a ← rd A.indptr row
  let b ← rd A.indptr (row + 1)
  slice A.data a b

/-! ## Products with vectors -/

/-- `Mult(const VectorView<U>& input, VectorView<V> output)` (include/sparsematrix.hpp:1034-1052). -/
def mult [Zero α] [Add α] [Mul α] (A : Csr α) (input output : List α) : Res (List α) := do
  cassert ((input.length : Int) = A.cols)
  cassert ((output.length : Int) = A.rows)
  forUp 0 A.rows output (fun i output => do
    let val ← A.forRow i (0 : α) (fun j val => do
      let d ← rd A.data j
      let c ← rd A.indices j
      let x ← vrd input c
      .ok (val + d * x))
    vwr output i val)

/-- `MultAT(const VectorView<U>& input, VectorView<V> output)` (include/sparsematrix.hpp:1054-1070). -/
def multAT [Zero α] [Add α] [Mul α] (A : Csr α) (input output : List α) : Res (List α) := do
  cassert ((input.length : Int) = A.rows)
  cassert ((output.length : Int) = A.cols)
  let output := List.replicate output.length (0 : α)
  forUp 0 A.rows output (fun i output =>
    A.forRow i output (fun j output => do
      let c ← rd A.indices j
      let d ← rd A.data j
      let x ← vrd input i
      let old ← vrd output c
      vwr output c (old + d * x)))

/-- `Mult(const VectorView<U>& input)` (include/sparsematrix.hpp:1014-1022) and `operator*`
(include/sparsematrix.hpp:1084-1089): the result vector starts as zeros. -/
def multVec [Zero α] [Add α] [Mul α] (A : Csr α) (input : List α) : Res (List α) := do
  let output ← mkVec A.rows (0 : α)
  A.mult input output

/-- `MultAT(const VectorView<U>& input)` (include/sparsematrix.hpp:1024-1032). -/
def multATVec [Zero α] [Add α] [Mul α] (A : Csr α) (input : List α) : Res (List α) := do
  let output ← mkVec A.cols (0 : α)
  A.multAT input output

/-! ## Conversion to dense -/

/-- `ToDense(DenseMatrix& dense)` (include/sparsematrix.hpp:562-575). -/
def toDenseInto [Zero α] (A : Csr α) (dense : Dense α) : Res (Dense α) := do
  let dense ← dense.setSize A.rows A.cols
  let dense := dense.fill 0
  forUp 0 A.rows dense (fun i dense =>
    A.forRow i dense (fun j dense => do
      let d ← rd A.data j
      let c ← rd A.indices j
      dense.put i c d))

/-- `ToDense()` (include/sparsematrix.hpp:552-560). -/
def toDense [Zero α] (A : Csr α) : Res (Dense α) := do
  let dense ← Dense.zeros A.rows A.cols
  A.toDenseInto dense

/-- `TransposeDense(DenseMatrix& output)` (include/sparsematrix.hpp:763-776). -/
def transposeDenseInto [Zero α] (A : Csr α) (output : Dense α) : Res (Dense α) := do
  let output ← output.setSize A.cols A.rows
  let output := output.fill 0
  forUp 0 A.rows output (fun i output =>
    A.forRow i output (fun j output => do
      let d ← rd A.data j
      let c ← rd A.indices j
      output.put c i d))

/-- `TransposeDense()` (include/sparsematrix.hpp:753-761). -/
def transposeDense [Zero α] (A : Csr α) : Res (Dense α) := do
  let output ← Dense.zeros A.cols A.rows
  A.transposeDenseInto output

/-! ## Products with dense matrices -/

/-- `Mult(const DenseMatrix& input, DenseMatrix& output)` (include/sparsematrix.hpp:643-665). -/
def multDenseInto [Zero α] [Add α] [Mul α] (A : Csr α) (input output : Dense α) :
    Res (Dense α) := do
  cassert (input.rows = A.cols)
  let output ← output.setSize A.rows input.cols
  let output := output.fill 0
  forUp 0 input.cols output (fun k output =>
    forUp 0 A.rows output (fun i output => do
      let val ← A.forRow i (0 : α) (fun j val => do
        let d ← rd A.data j
        let c ← rd A.indices j
        let x ← input.get c k
        .ok (val + d * x))
      output.put i k val))

/-- `Mult(const DenseMatrix& input)` (include/sparsematrix.hpp:616-623). -/
def multDense [Zero α] [Add α] [Mul α] (A : Csr α) (input : Dense α) : Res (Dense α) := do
  let output ← Dense.zeros A.rows input.cols
  A.multDenseInto input output

/-- `MultAT(const DenseMatrix& input, DenseMatrix& output)` (include/sparsematrix.hpp:667-685). -/
def multATDenseInto [Zero α] [Add α] [Mul α] (A : Csr α) (input output : Dense α) :
    Res (Dense α) := do
  cassert (input.rows = A.rows)
  let output ← output.setSize A.cols input.cols
  let output := output.fill 0
  forUp 0 input.cols output (fun k output =>
    forUp 0 A.rows output (fun i output =>
      A.forRow i output (fun j output => do
        let c ← rd A.indices j
        let d ← rd A.data j
        let x ← input.get i k
        let old ← output.get c k
        output.put c k (old + d * x))))

/-- `MultAT(const DenseMatrix& input)` (include/sparsematrix.hpp:625-632). -/
def multATDense [Zero α] [Add α] [Mul α] (A : Csr α) (input : Dense α) : Res (Dense α) := do
  let output ← Dense.zeros A.cols input.cols
  A.multATDenseInto input output

/-- `MultCT(const DenseMatrix& input, DenseMatrix& output)` (include/sparsematrix.hpp:687-709). -/
def multCTDenseInto [Zero α] [Add α] [Mul α] (A : Csr α) (input output : Dense α) :
    Res (Dense α) := do
  cassert (input.rows = A.cols)
  let output ← output.setSize input.cols A.rows
  let output := output.fill 0
  forUp 0 input.cols output (fun k output =>
    forUp 0 A.rows output (fun i output => do
      let val ← A.forRow i (0 : α) (fun j val => do
        let d ← rd A.data j
        let c ← rd A.indices j
        let x ← input.get c k
        .ok (val + d * x))
      output.put k i val))

/-- `MultCT(const DenseMatrix& input)` (include/sparsematrix.hpp:634-641). -/
def multCTDense [Zero α] [Add α] [Mul α] (A : Csr α) (input : Dense α) : Res (Dense α) := do
  let output ← Dense.zeros input.cols A.rows
  A.multCTDenseInto input output

/-! ## Transpose -/

/-- `Transpose()` (include/sparsematrix.hpp:711-751). -/
def transpose [Zero α] (A : Csr α) : Res (Csr α) := do
  let outIndptr ← mkVec (A.cols + 1) (0 : Int)
  let outIndices := List.replicate A.data.length (0 : Int)
  let outData := List.replicate A.data.length (0 : α)
  let outIndptr ← A.indices.foldlM (fun p col => do
    let x ← rd p (col + 1)
    wr p (col + 1) (x + 1)) outIndptr
  let outIndptr ← forUp 0 A.cols outIndptr (fun i p => do
    let x ← rd p (i + 1)
    let y ← rd p i
    wr p (i + 1) (x + y))
  let out ← forUp 0 A.rows (outIndptr, outIndices, outData) (fun i out =>
    A.forRow i out (fun j out => do
      let row ← rd A.indices j
      let val ← rd A.data j
      let k ← rd out.1 row
      let ix ← wr out.2.1 k i
      let dt ← wr out.2.2 k val
      let p ← wr out.1 row (k + 1)
      .ok (p, ix, dt)))
  let p ← forDown A.cols 0 out.1 (fun i p => do
    let x ← rd p (i - 1)
    wr p i x)
  let p ← wr p 0 0
  ofArrays p out.2.1 out.2.2 A.cols A.rows

/-! ## Sparse-sparse product -/

/-- `Mult(const SparseMatrix<U>& rhs, std::vector<int>& marker)` (include/sparsematrix.hpp:1100-1168).
The marker is an in/out argument; only its length and contents on entry matter, so it is an input here and
its final contents (not used by callers) are not returned. -/
def multSparseMarker [Zero α] [Add α] [Mul α] (A B : Csr α) (marker : List Int) :
    Res (Csr α) := do
  cassert (B.rows = A.cols)
  let marker := List.replicate (resize marker B.cols.toNat 0).length (-1 : Int)
  let outIndptr ← mkVec (A.rows + 1) (0 : Int)
  let outIndptr ← wr outIndptr 0 0
  -- symbolic pass: state (marker, out_nnz, out_indptr)
  let st ← forUp 0 A.rows (marker, (0 : Int), outIndptr) (fun i st => do
    let mn ← A.forRow i (st.1, st.2.1) (fun j mn => do
      let l ← rd A.indices j
      B.forRow l mn (fun k mn => do
        let c ← rd B.indices k
        let m ← rd mn.1 c
        if m ≠ i then
          let marker ← wr mn.1 c i
          .ok (marker, mn.2 + 1)
        else .ok mn))
    let p ← wr st.2.2 (i + 1) mn.2
    .ok (mn.1, mn.2, p))
  let outNnz := st.2.1
  let outIndptr := st.2.2
  let marker := List.replicate st.1.length (-1 : Int)
  let outIndices ← mkVec outNnz (0 : Int)
  let outData ← mkVec outNnz (0 : α)
  -- numeric pass: state (marker, total, out_indices, out_data)
  let st ← forUp 0 A.rows (marker, (0 : Int), outIndices, outData) (fun i st => do
    let rowNnz := st.2.1
    A.forRow i st (fun j st => do
      let l ← rd A.indices j
      B.forRow l st (fun k st => do
        let c ← rd B.indices k
        let m ← rd st.1 c
        let a ← rd A.data j
        let b ← rd B.data k
        if m < rowNnz then
          let marker ← wr st.1 c st.2.1
          let ix ← wr st.2.2.1 st.2.1 c
          let dt ← wr st.2.2.2 st.2.1 (a * b)
          .ok (marker, st.2.1 + 1, ix, dt)
        else
          let old ← rd st.2.2.2 m
          let dt ← wr st.2.2.2 m (old + a * b)
          .ok (st.1, st.2.1, st.2.2.1, dt))))
  ofArrays outIndptr st.2.2.1 st.2.2.2 A.rows B.cols

/-- `Mult(const SparseMatrix<U>& rhs)` (include/sparsematrix.hpp:1091-1098). -/
def multSparse [Zero α] [Add α] [Mul α] (A B : Csr α) : Res (Csr α) := do
  let marker ← mkVec B.cols (0 : Int)
  A.multSparseMarker B marker

/-! ## Sorting -/

/-- A stand-in for `std::sort(first, last, comp)` on a range of `int`s: any function that, given the
comparator and the range, returns the new contents of the range.  Theorems assume `IsSort`. -/
abbrev Sorter := (Int → Int → Bool) → List Int → List Int

/-- `SortIndices()` (include/sparsematrix.hpp:577-614).  `srt` is the `std::sort` used; the comparator reads
`indices_[i]`, so the values in the sorted range must be valid positions (checked before the call). -/
def sortIndices (srt : Sorter) (A : Csr α) : Res (Csr α) := do
  let perm := iota A.indices.length
  let perm ← forUp 0 A.rows perm (fun i perm => do
    let start ← rd A.indptr i
    let stop ← rd A.indptr (i + 1)
    let seg ← slice perm start stop
    let _ ← seg.foldlM (fun (_ : Int) p => rd A.indices p) 0
    let sorted := srt (fun a b => A.indices.getD a.toNat 0 < A.indices.getD b.toNat 0) seg
    .ok (perm.take start.toNat ++ sorted ++ perm.drop stop.toNat))
  let ix ← perm.mapM (fun p => rd A.indices p)
  let dt ← perm.mapM (fun p => rd A.data p)
  .ok { A with indices := ix, data := dt }

/-! ## Diagonal -/

/-- `GetDiag()` (include/sparsematrix.hpp:778-801). -/
def getDiag [Zero α] (A : Csr α) : Res (List α) := do
  cassert (A.rows = A.cols)
  let diag ← mkVec A.rows (0 : α)
  forUp 0 A.rows diag (fun i diag => do
    let val ← A.forRow i (0 : α) (fun j val => do
      let c ← rd A.indices j
      if c = i then rd A.data j else .ok val)
    wr diag i val)

/-- `AddDiag(const std::vector<T>& diag)` (include/sparsematrix.hpp:803-818). -/
def addDiag [Add α] (A : Csr α) (diag : List α) : Res (Csr α) := do
  cassert (A.rows = A.cols)
  let data ← forUp 0 A.rows A.data (fun i data =>
    A.forRow i data (fun j data => do
      let c ← rd A.indices j
      if c = i then
        let d ← rd data j
        let e ← rd diag i
        wr data j (d + e)
      else .ok data))
  .ok { A with data := data }

/-- `AddDiag(T val)` (include/sparsematrix.hpp:820-835). -/
def addDiagVal [Add α] (A : Csr α) (val : α) : Res (Csr α) := do
  cassert (A.rows = A.cols)
  let data ← forUp 0 A.rows A.data (fun i data =>
    A.forRow i data (fun j data => do
      let c ← rd A.indices j
      if c = i then
        let d ← rd data j
        wr data j (d + val)
      else .ok data))
  .ok { A with data := data }

/-! ## Submatrix -/

/-- `GetSubMatrix(rows, cols, marker)` (include/sparsematrix.hpp:846-909).  Returns the new matrix and the
updated marker. -/
def getSubMatrixMarker [Zero α] (A : Csr α) (rows cols marker : List Int) :
    Res (Csr α × List Int) := do
  cassert ((marker.length : Int) ≥ A.cols)
  let outIndptr := List.replicate (rows.length + 1) (0 : Int)
  let outIndptr ← wr outIndptr 0 0
  let marker ← forUp 0 (cols.length : Int) marker (fun i marker => do
    let c ← rd cols i
    wr marker c i)
  let st ← forUp 0 (rows.length : Int) ((0 : Int), outIndptr) (fun i st => do
    let row ← rd rows i
    cassert (row < A.rows)
    let n ← A.forRow row st.1 (fun j n => do
      let c ← rd A.indices j
      let m ← rd marker c
      if m ≠ -1 then .ok (n + 1) else .ok n)
    let p ← wr st.2 (i + 1) n
    .ok (n, p))
  let outIndices ← mkVec st.1 (0 : Int)
  let outData ← mkVec st.1 (0 : α)
  let out ← rows.foldlM (fun out row =>
    A.forRow row out (fun j out => do
      let c ← rd A.indices j
      let m ← rd marker c
      if m ≠ -1 then
        let ix ← wr out.2.1 out.1 m
        let d ← rd A.data j
        let dt ← wr out.2.2 out.1 d
        .ok (out.1 + 1, ix, dt)
      else .ok out)) ((0 : Int), outIndices, outData)
  let marker ← cols.foldlM (fun marker i => wr marker i (-1)) marker
  let S ← ofArrays st.2 out.2.1 out.2.2 rows.length cols.length
  .ok (S, marker)

/-- `GetSubMatrix(rows, cols)` (include/sparsematrix.hpp:837-844). -/
def getSubMatrix [Zero α] (A : Csr α) (rows cols : List Int) : Res (Csr α) := do
  let marker ← mkVec A.cols (-1 : Int)
  let r ← A.getSubMatrixMarker rows cols marker
  .ok r.1

/-! ## Scalar updates and norms -/

/-- `operator*=(U val)` (include/sparsematrix.hpp:1170-1180), also `operator*(A, val)`, `operator*(val, A)`. -/
def scale [Mul α] (A : Csr α) (val : α) : Csr α := { A with data := A.data.map (fun d => d * val) }

/-- `operator/=(U val)` (include/sparsematrix.hpp:1182-1194). -/
def divScale [Zero α] [Div α] [DecidableEq α] (A : Csr α) (val : α) : Res (Csr α) := do
  cassert (val ≠ 0)
  .ok { A with data := A.data.map (fun d => d / val) }

/-- `operator=(U val)` (include/sparsematrix.hpp:1196-1205). -/
def fillVal [Zero α] [DecidableEq α] (A : Csr α) (val : α) : Res (Csr α) := do
  cassert (val ≠ 0)
  .ok { A with data := List.replicate A.data.length val }

/-- `Sum()` (include/sparsematrix.hpp:1239-1244). -/
def sum [Zero α] [Add α] (A : Csr α) : α := A.data.foldl (fun s d => s + d) 0

/-- `MaxNorm()` (include/sparsematrix.hpp:1246-1257). -/
def maxNorm [Lattice α] [AddGroup α] (A : Csr α) : α := A.data.foldl (fun s d => s + |d|) 0

/-! ## Row and column scaling -/

/-- `ScaleRows(const std::vector<T>& values)` (include/sparsematrix.hpp:1283-1297). -/
def scaleRows [Mul α] (A : Csr α) (values : List α) : Res (Csr α) := do
  cassert ((values.length : Int) = A.rows)
  let data ← forUp 0 A.rows A.data (fun i data => do
    let s ← rd values i
    A.forRow i data (fun j data => do
      let d ← rd data j
      wr data j (d * s)))
  .ok { A with data := data }

/-- `ScaleCols(const std::vector<T>& values)` (include/sparsematrix.hpp:1299-1311). -/
def scaleCols [Mul α] (A : Csr α) (values : List α) : Res (Csr α) := do
  cassert ((values.length : Int) = A.cols)
  let data ← forUp 0 A.rows A.data (fun i data =>
    A.forRow i data (fun j data => do
      let c ← rd A.indices j
      let s ← rd values c
      let d ← rd data j
      wr data j (d * s)))
  .ok { A with data := data }

/-- `InverseScaleRows(const std::vector<T>& values)` (include/sparsematrix.hpp:1313-1328). -/
def inverseScaleRows [Zero α] [Div α] [DecidableEq α] (A : Csr α) (values : List α) :
    Res (Csr α) := do
  cassert ((values.length : Int) = A.rows)
  let data ← forUp 0 A.rows A.data (fun i data => do
    let s ← rd values i
    cassert (s ≠ 0)
    A.forRow i data (fun j data => do
      let d ← rd data j
      wr data j (d / s)))
  .ok { A with data := data }

/-- `InverseScaleCols(const std::vector<T>& values)` (include/sparsematrix.hpp:1330-1345). -/
def inverseScaleCols [Zero α] [Div α] [DecidableEq α] (A : Csr α) (values : List α) :
    Res (Csr α) := do
  cassert ((values.length : Int) = A.cols)
  let data ← forUp 0 A.rows A.data (fun i data =>
    A.forRow i data (fun j data => do
      let c ← rd A.indices j
      let s ← rd values c
      cassert (s ≠ 0)
      let d ← rd data j
      wr data j (d / s)))
  .ok { A with data := data }

/-- `ScaleRows(const SparseMatrix<T>& values)` (include/sparsematrix.hpp:1259-1263): uses the stored values. -/
def scaleRowsMat [Mul α] (A D : Csr α) : Res (Csr α) := A.scaleRows D.data

/-- `ScaleCols(const SparseMatrix<T>& values)` (include/sparsematrix.hpp:1265-1269). -/
def scaleColsMat [Mul α] (A D : Csr α) : Res (Csr α) := A.scaleCols D.data

/-- `InverseScaleRows(const SparseMatrix<T>& values)` (include/sparsematrix.hpp:1271-1275). -/
def inverseScaleRowsMat [Zero α] [Div α] [DecidableEq α] (A D : Csr α) : Res (Csr α) :=
  A.inverseScaleRows D.data

/-- `InverseScaleCols(const SparseMatrix<T>& values)` (include/sparsematrix.hpp:1277-1281). -/
def inverseScaleColsMat [Zero α] [Div α] [DecidableEq α] (A D : Csr α) : Res (Csr α) :=
  A.inverseScaleCols D.data

/-! ## Column permutation -/

/-- `PermuteCols(const std::vector<int>& perm)` (include/sparsematrix.hpp:1347-1361). -/
def permuteCols (A : Csr α) (perm : List Int) : Res (Csr α) := do
  cassert ((perm.length : Int) = A.cols)
  let ix ← forUp 0 (A.indices.length : Int) A.indices (fun i ix => do
    let c ← rd ix i
    let p ← rd perm c
    cassert (p ≥ 0)
    cassert (p < A.cols)
    wr ix i p)
  .ok { A with indices := ix }

/-! ## Elimination -/

/-- `EliminateRowCol(int index)` (include/sparsematrix.hpp:1363-1382). -/
def eliminateRowCol [Zero α] [One α] (A : Csr α) (index : Int) : Res (Csr α) := do
  cassert (index ≥ 0)
  cassert (index < A.rows)
  cassert (index < A.cols)
  let data ← forUp 0 A.rows A.data (fun row data =>
    A.forRow row data (fun j data => do
      let col ← rd A.indices j
      if row = index ∨ col = index then
        wr data j (if col = row then 1 else 0)
      else .ok data))
  .ok { A with data := data }

/-- `EliminateRowCol(const U& marker)` (include/sparsematrix.hpp:1384-1403); the marker is a vector of flags
(short-circuit `||`: `marker[col]` is only read when `marker[row]` is false). -/
def eliminateRowColMarker [Zero α] [One α] (A : Csr α) (marker : List Bool) : Res (Csr α) := do
  cassert (A.rows = A.cols)
  cassert ((marker.length : Int) ≥ A.cols)
  let data ← forUp 0 A.rows A.data (fun row data =>
    A.forRow row data (fun j data => do
      let col ← rd A.indices j
      let mr ← rd marker row
      let m ← if mr then .ok true else rd marker col
      if m then wr data j (if row = col then 1 else 0) else .ok data))
  .ok { A with data := data }

/-- `EliminateRow(int index)` (include/sparsematrix.hpp:1405-1415). -/
def eliminateRow [Zero α] (A : Csr α) (index : Int) : Res (Csr α) := do
  cassert (index ≥ 0)
  cassert (index < A.rows)
  let data ← A.forRow index A.data (fun j data => wr data j 0)
  .ok { A with data := data }

/-- `EliminateCol(int index)` (include/sparsematrix.hpp:1417-1433). -/
def eliminateCol [Zero α] (A : Csr α) (index : Int) : Res (Csr α) := do
  cassert (index ≥ 0)
  cassert (index < A.cols ∨ A.cols = 0)
  let data ← forUp 0 A.rows A.data (fun row data =>
    A.forRow row data (fun j data => do
      let c ← rd A.indices j
      if c = index then wr data j 0 else .ok data))
  .ok { A with data := data }

/-- `EliminateCol(const U& marker)` (include/sparsematrix.hpp:1435-1451). -/
def eliminateColMarker [Zero α] (A : Csr α) (marker : List Bool) : Res (Csr α) := do
  cassert ((marker.length : Int) ≥ A.cols)
  let data ← forUp 0 A.rows A.data (fun row data =>
    A.forRow row data (fun j data => do
      let c ← rd A.indices j
      let m ← rd marker c
      if m then wr data j 0 else .ok data))
  .ok { A with data := data }

/-- `EliminateCol(const U& marker, const VectorView<double>& x, VectorView<double> b)`
(include/sparsematrix.hpp:1453-1470).  Returns the matrix and the updated `b`. -/
def eliminateColRhs [Zero α] [Sub α] [Mul α] [DecidableEq α] (A : Csr α) (marker : List Bool)
    (x b : List α) : Res (Csr α × List α) := do
  cassert ((marker.length : Int) ≥ A.cols)
  let st ← forUp 0 A.rows (A.data, b) (fun row st =>
    A.forRow row st (fun j st => do
      let c ← rd A.indices j
      let m ← rd marker c
      let d ← rd st.1 j
      if m = true ∧ d ≠ 0 then
        let xv ← vrd x c
        let old ← vrd st.2 row
        let b ← vwr st.2 row (old - d * xv)
        let data ← wr st.1 j 0
        .ok (data, b)
      else .ok st))
  .ok ({ A with data := st.1 }, st.2)

/-- `EliminateZeros(T tolerance)` (include/sparsematrix.hpp:1472-1500); `push_back` appends. -/
def eliminateZeros [LinearOrder α] [AddGroup α] (A : Csr α) (tolerance : α) : Res (Csr α) := do
  let st ← forUp 0 A.rows (([0] : List Int), ([] : List Int), ([] : List α)) (fun i st => do
    let e ← A.forRow i (st.2.1, st.2.2) (fun j e => do
      let d ← rd A.data j
      if |d| > tolerance then
        let c ← rd A.indices j
        .ok (e.1 ++ [c], e.2 ++ [d])
      else .ok e)
    .ok (st.1 ++ [(e.1.length : Int)], e.1, e.2))
  .ok { A with indptr := st.1, indices := st.2.1, data := st.2.2 }

end Csr
end Linalg
