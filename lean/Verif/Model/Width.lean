import Verif.Model.Sparse
import Verif.Model.Coo
import Verif.Model.Block

/-!
# The same functions with `int` arithmetic of finite range

In the other models an `int` is an integer.  Here the additions and multiplications on `int` that are not those of a loop counter (a counter, and a
counter plus one, do not exceed the bound of its loop) are checked: a value above `M` or below `-M - 1` is undefined behaviour.  `M` is `INT_MAX`.
The functions on sparse matrices take the check as an argument: with none they are those of the other models (C108_unlimited).
-/

namespace Linalg
open Cpp

variable {α σ : Type}

/-- `INT_MAX` for an `int` of 32 bits. -/
def intMax : Int := 2147483647

/-- The value of an `int` expression: undefined unless it fits. -/
def fit (M x : Int) : Res Int := if -M - 1 ≤ x ∧ x ≤ M then .ok x else .error .undefinedBehaviour

/-- `static_cast<int>(n)` of a `size_t`: the value modulo two to the number of bits. -/
def castInt (M : Int) (n : Nat) : Int := ((n : Int) + (M + 1)) % (2 * (M + 1)) - (M + 1)

/-! ## DenseMatrix -/

namespace Dense

/-- `DenseMatrix(int rows, int cols, std::vector<double> data)` (src/densematrix.cpp:46-53). -/
def ofDataLim (M rows cols : Int) (data : List α) : Res (Dense α) := do
  cassert (rows ≥ 0)
  cassert (cols ≥ 0)
  let n ← fit M (rows * cols)
  cassert (castInt M data.length = n)
  .ok ⟨rows, cols, data⟩

/-- `DenseMatrix(int rows, int cols)` (src/densematrix.cpp:41-44). -/
def zerosLim [Zero α] (M rows cols : Int) : Res (Dense α) := do
  let n ← fit M (rows * cols)
  let v ← mkVec n (0 : α)
  ofDataLim M rows cols v

/-- `SetSize(int rows, int cols, double val)` (src/densematrix.cpp:105-113); `SetSize(int rows, int cols)` (src/densematrix.cpp:90-98) is this for 0. -/
def setSizeLim (M : Int) (D : Dense α) (rows cols : Int) (val : α) : Res (Dense α) := do
  cassert (rows ≥ 0)
  cassert (cols ≥ 0)
  let n ← fit M (rows * cols)
  .ok ⟨rows, cols, resize D.data n.toNat val⟩

/-- The index of `operator()` (include/densematrix.hpp:594, 606): `row + (col * rows_)`. -/
def indexLim (M : Int) (D : Dense α) (row col : Int) : Res Int := do
  let k ← fit M (col * D.rows)
  fit M (row + k)

/-- Reading `D(row, col)` (include/densematrix.hpp:597-607). -/
def getLim (M : Int) (D : Dense α) (row col : Int) : Res α := do
  D.checkIdx row col
  let k ← D.indexLim M row col
  rd D.data k

/-- Assigning `D(row, col) = x` (include/densematrix.hpp:586-595). -/
def putLim (M : Int) (D : Dense α) (row col : Int) (x : α) : Res (Dense α) := do
  D.checkIdx row col
  let k ← D.indexLim M row col
  let d ← wr D.data k x
  .ok { D with data := d }

end Dense

/-! ## SparseMatrix -/

namespace Csr

/-- `ToDense(DenseMatrix& dense)` (include/sparsematrix.hpp:562-575). -/
def toDenseIntoLim [Zero α] (M : Int) (A : Csr α) (dense : Dense α) : Res (Dense α) := do
  let dense ← dense.setSizeLim M A.rows A.cols 0
  forUp 0 A.rows (dense.fill 0) (fun i D =>
    A.forRow i D (fun j D => do
      let d ← rd A.data j
      let c ← rd A.indices j
      D.putLim M i c d))

/-- `Transpose()` (include/sparsematrix.hpp:711-751). -/
def transposeOn [Zero α] (int : Int → Res Int) (A : Csr α) : Res (Csr α) := do
  let n ← int (A.cols + 1)
  let outIndptr ← mkVec n (0 : Int)
  let outIndices := List.replicate A.data.length (0 : Int)
  let outData := List.replicate A.data.length (0 : α)
  let outIndptr ← A.indices.foldlM (fun p col => do
    let x ← rd p (col + 1)
    let x ← int (x + 1)
    wr p (col + 1) x) outIndptr
  let outIndptr ← forUp 0 A.cols outIndptr (fun i p => do
    let x ← rd p (i + 1)
    let y ← rd p i
    let x ← int (x + y)
    wr p (i + 1) x)
  let out ← forUp 0 A.rows (outIndptr, outIndices, outData) (fun i out =>
    A.forRow i out (fun j out => do
      let row ← rd A.indices j
      let val ← rd A.data j
      let k ← rd out.1 row
      let ix ← wr out.2.1 k i
      let dt ← wr out.2.2 k val
      let k ← int (k + 1)
      let p ← wr out.1 row k
      .ok (p, ix, dt)))
  let p ← forDown A.cols 0 out.1 (fun i p => do
    let x ← rd p (i - 1)
    wr p i x)
  let p ← wr p 0 0
  ofArrays p out.2.1 out.2.2 A.cols A.rows

/-- A row of the first pass of the sparse product (include/sparsematrix.hpp:1119-1133): marker, `out_nnz`, `out_indptr`. -/
def symOn (int : Int → Res Int) (A B : Csr α) (i : Int) (st : List Int × Int × List Int) : Res (List Int × Int × List Int) := do
  let mn ← A.forRow i (st.1, st.2.1) (fun j mn => do
    let l ← rd A.indices j
    B.forRow l mn (fun k mn => do
      let c ← rd B.indices k
      let m ← rd mn.1 c
      if m ≠ i then
        let marker ← wr mn.1 c i
        let n ← int (mn.2 + 1)
        .ok (marker, n)
      else .ok mn))
  let p ← wr st.2.2 (i + 1) mn.2
  .ok (mn.1, mn.2, p)

/-- A row of the second pass (include/sparsematrix.hpp:1142-1164): marker, `total`, `out_indices`, `out_data`. -/
def numOn [Add α] [Mul α] (int : Int → Res Int) (A B : Csr α) (i : Int) (st : List Int × Int × List Int × List α) :
    Res (List Int × Int × List Int × List α) := do
  let rowNnz := st.2.1
  A.forRow i st (fun j st => do
    let l ← rd A.indices j
    B.forRow l st (fun k st => do
      let c ← rd B.indices k
      let m ← rd st.1 c
      let a ← rd A.data j
      let b ← rd B.data k
      if m < rowNnz then
        let marker ← wr st.1 c st.2.1
        let ix ← wr st.2.2.1 st.2.1 c
        let dt ← wr st.2.2.2 st.2.1 (a * b)
        let t ← int (st.2.1 + 1)
        .ok (marker, t, ix, dt)
      else
        let old ← rd st.2.2.2 m
        let dt ← wr st.2.2.2 m (old + a * b)
        .ok (st.1, st.2.1, st.2.2.1, dt)))

/-- `Mult(const SparseMatrix<U>& rhs, std::vector<int>& marker)` (include/sparsematrix.hpp:1100-1168). -/
def multSparseOn [Zero α] [Add α] [Mul α] (int : Int → Res Int) (A B : Csr α) (marker : List Int) : Res (Csr α) := do
  cassert (B.rows = A.cols)
  let marker := List.replicate (resize marker B.cols.toNat 0).length (-1 : Int)
  let n ← int (A.rows + 1)
  let outIndptr ← mkVec n (0 : Int)
  let outIndptr ← wr outIndptr 0 0
  let st ← forUp 0 A.rows (marker, (0 : Int), outIndptr) (symOn int A B)
  let outNnz := st.2.1
  let outIndptr := st.2.2
  let marker := List.replicate st.1.length (-1 : Int)
  let outIndices ← mkVec outNnz (0 : Int)
  let outData ← mkVec outNnz (0 : α)
  let st ← forUp 0 A.rows (marker, (0 : Int), outIndices, outData) (numOn int A B)
  ofArrays outIndptr st.2.2.1 st.2.2.2 A.rows B.cols

end Csr

/-! ## CooMatrix -/

namespace Coo

/-- `FindSize()` (include/coomatrix.hpp:702-723). -/
def findSizeOn (int : Int → Res Int) (C : Coo α) : Res (Int × Int) :=
  if C.sizeSet then .ok (C.rows, C.cols)
  else do
    let m := C.entries.foldl (fun (m : Int × Int) e => (max m.1 e.1, max m.2 e.2.1)) (0, 0)
    let r ← int (m.1 + 1)
    let c ← int (m.2 + 1)
    .ok (r, c)

/-- The counting loop of `ToSparse()` (include/coomatrix.hpp:600-612). -/
def countStepOn (int : Int → Res Int) (st : List Int × List (List (Int × Int))) (e : Int × Int × α) :
    Res (List Int × List (List (Int × Int))) := do
  let m ← rd st.2 e.1
  match m.lookup e.2.1 with
  | some _ => .ok st
  | none => do
    let x ← rd st.1 (e.1 + 1)
    let x ← int (x + 1)
    let p ← wr st.1 (e.1 + 1) x
    let ms ← wr st.2 e.1 (m ++ [(e.2.1, (m.length : Int))])
    .ok (p, ms)

/-- `std::partial_sum`. -/
def partialSumOn (int : Int → Res Int) (v : List Int) : Res (List Int) :=
  forUp 0 ((v.length : Int) - 1) v (fun i p => do
    let x ← rd p (i + 1)
    let y ← rd p i
    let z ← int (x + y)
    wr p (i + 1) z)

/-- The filling loop of `ToSparse()` (include/coomatrix.hpp:622-631). -/
def fillStepOn [Add α] (int : Int → Res Int) (indptr : List Int) (indexMap : List (List (Int × Int))) (out : List Int × List α)
    (e : Int × Int × α) : Res (List Int × List α) := do
  let p ← rd indptr e.1
  let m ← rd indexMap e.1
  match m.lookup e.2.1 with
  | none => .error .threw
  | some k => do
    let q ← int (p + k)
    let ix ← wr out.1 q e.2.1
    let d ← rd out.2 q
    let dt ← wr out.2 q (d + e.2.2)
    .ok (ix, dt)

/-- `ToSparse()` (include/coomatrix.hpp:583-634). -/
def toSparseOn [Zero α] [Add α] (int : Int → Res Int) (C : Coo α) : Res (Csr α) := do
  let size ← C.findSizeOn int
  if C.entries.isEmpty then do
    let _ ← int (size.1 + 1)
    Csr.zero size.1 size.2
  else do
    let n ← int (size.1 + 1)
    let indptr ← mkVec n (0 : Int)
    let indexMap ← mkVec size.1 ([] : List (Int × Int))
    let st ← C.entries.foldlM (countStepOn int) (indptr, indexMap)
    let indptr ← partialSumOn int st.1
    let nnz ← rd indptr ((indptr.length : Int) - 1)
    let indices ← mkVec nnz (0 : Int)
    let data ← mkVec nnz (0 : α)
    let out ← C.entries.foldlM (fillStepOn int indptr st.2) (indices, data)
    Csr.ofArrays indptr out.1 out.2 size.1 size.2

end Coo

/-! ## BlockMatrix -/

namespace BlockMat

/-- The number of entries of all blocks (include/blockmatrix.hpp:227-235). -/
def nnzTotalLim (M : Int) (B : BlockMat α) : Res Int :=
  B.blocks.foldlM (fun s row => row.foldlM (fun s mat => fit M (s + mat.nnz)) s) 0

end BlockMat
end Linalg
