import Verif.Model.Sparse

/-!
# include/coomatrix.hpp

`CooMatrix<T>`, function by function.  Simplifications: `T`, the element type of the resulting matrices and
`double` are one scalar type; `assert(val == val)` (not a NaN) holds for every modelled scalar; `Reserve`,
`Print`, copying and swapping are left out; each `std::unordered_map<int, int>` of `ToSparse` is a list of
key/value pairs in insertion order, of which only `find`, `at`, `size` and inserting a new key are used.
-/

namespace Linalg
open Cpp

/-- `class CooMatrix<T>` (include/coomatrix.hpp:250-254), with `rows_`, `cols_` from `Operator`. -/
structure Coo (α : Type) where
  rows : Int
  cols : Int
  sizeSet : Bool
  entries : List (Int × Int × α)
  deriving DecidableEq, Repr

/-- `std::partial_sum(begin(v), end(v), begin(v))`. -/
def partialSum (v : List Int) : Res (List Int) :=
  forUp 0 ((v.length : Int) - 1) v (fun i p => do
    let x ← rd p (i + 1)
    let y ← rd p i
    wr p (i + 1) (x + y))

namespace Coo
variable {α : Type}

/-- `CooMatrix()` (include/coomatrix.hpp:257-261). -/
def new : Coo α := ⟨0, 0, false, []⟩

/-- `CooMatrix(int rows, int cols)` (include/coomatrix.hpp:269-273); `Operator` asserts the sizes
(src/operator.cpp:18-23). -/
def ofSize (rows cols : Int) : Res (Coo α) := do
  cassert (rows ≥ 0)
  cassert (cols ≥ 0)
  .ok ⟨rows, cols, true, []⟩

/-- `SetSize(int rows, int cols)` (include/coomatrix.hpp:305-315). -/
def setSize (C : Coo α) (rows cols : Int) : Res (Coo α) := do
  cassert (rows ≥ 0)
  cassert (cols ≥ 0)
  .ok { C with sizeSet := true, rows := rows, cols := cols }

/-- `Add(int i, int j, T val)` (include/coomatrix.hpp:325-339). -/
def add (C : Coo α) (i j : Int) (val : α) : Res (Coo α) := do
  cassert (i ≥ 0)
  cassert (j ≥ 0)
  if C.sizeSet then
    cassert (i < C.rows)
    cassert (j < C.cols)
  .ok { C with entries := C.entries ++ [(i, j, val)] }

/-- `AddSym(int i, int j, T val)` (include/coomatrix.hpp:341-350). -/
def addSym (C : Coo α) (i j : Int) (val : α) : Res (Coo α) := do
  let C ← C.add i j val
  if i ≠ j then C.add j i val else .ok C

/-- `Add(rows, cols, const DenseMatrix& values)` (include/coomatrix.hpp:359-382); `Add(indices, values)`
(352-357) passes the list twice. -/
def addBlock (C : Coo α) (rows cols : List Int) (values : Dense α) : Res (Coo α) := do
  cassert ((rows.length : Int) = values.rows)
  cassert ((cols.length : Int) = values.cols)
  forUp 0 values.cols C (fun j C => do
    let col ← rd cols j
    forUp 0 values.rows C (fun i C => do
      let row ← rd rows i
      let val ← values.get i j
      C.add row col val))

/-- `Add(rows, cols, T scale, const DenseMatrix& values)` (include/coomatrix.hpp:391-415); `Add(indices, scale,
values)` (384-389) passes the list twice. -/
def addBlockScaled [Mul α] (C : Coo α) (rows cols : List Int) (scale : α) (values : Dense α) : Res (Coo α) := do
  cassert ((rows.length : Int) = values.rows)
  cassert ((cols.length : Int) = values.cols)
  forUp 0 values.cols C (fun j C => do
    let col ← rd cols j
    forUp 0 values.rows C (fun i C => do
      let row ← rd rows i
      let val ← values.get i j
      C.add row col (scale * val)))

/-- `Add(rows, int col, const VectorView<T>& values)` (include/coomatrix.hpp:418-430). -/
def addCol (C : Coo α) (rows : List Int) (col : Int) (values : List α) : Res (Coo α) := do
  cassert (rows.length = values.length)
  forUp 0 (rows.length : Int) C (fun i C => do
    let row ← rd rows i
    let val ← vrd values i
    C.add row col val)

/-- `Add(int row, cols, const VectorView<T>& values)` (include/coomatrix.hpp:432-444). -/
def addRow (C : Coo α) (row : Int) (cols : List Int) (values : List α) : Res (Coo α) := do
  cassert (cols.length = values.length)
  forUp 0 (cols.length : Int) C (fun i C => do
    let col ← rd cols i
    let val ← vrd values i
    C.add row col val)

/-- `Add(rows, int col, T scale, const VectorView<T>& values)` (include/coomatrix.hpp:446-458). -/
def addColScaled [Mul α] (C : Coo α) (rows : List Int) (col : Int) (scale : α) (values : List α) :
    Res (Coo α) := do
  cassert (rows.length = values.length)
  forUp 0 (rows.length : Int) C (fun i C => do
    let row ← rd rows i
    let val ← vrd values i
    C.add row col (scale * val))

/-- `Add(int row, cols, T scale, const VectorView<T>& values)` (include/coomatrix.hpp:460-472). -/
def addRowScaled [Mul α] (C : Coo α) (row : Int) (cols : List Int) (scale : α) (values : List α) :
    Res (Coo α) := do
  cassert (cols.length = values.length)
  forUp 0 (cols.length : Int) C (fun i C => do
    let col ← rd cols i
    let val ← vrd values i
    C.add row col (scale * val))

/-- `Add(rows, cols, const U& values)` for an indexable object (include/coomatrix.hpp:474-488). -/
def addZip (C : Coo α) (rows cols : List Int) (values : List α) : Res (Coo α) := do
  cassert (rows.length = values.length)
  cassert (cols.length = values.length)
  forUp 0 (cols.length : Int) C (fun i C => do
    let row ← rd rows i
    let col ← rd cols i
    let val ← rd values i
    C.add row col val)

/-- `Add(rows, cols, T scale, const U& values)` (include/coomatrix.hpp:490-504). -/
def addZipScaled [Mul α] (C : Coo α) (rows cols : List Int) (scale : α) (values : List α) : Res (Coo α) := do
  cassert (rows.length = values.length)
  cassert (cols.length = values.length)
  forUp 0 (cols.length : Int) C (fun i C => do
    let row ← rd rows i
    let col ← rd cols i
    let val ← rd values i
    C.add row col (scale * val))

/-- `FindSize()` (include/coomatrix.hpp:702-723). -/
def findSize (C : Coo α) : Int × Int :=
  if C.sizeSet then (C.rows, C.cols)
  else
    let m := C.entries.foldl (fun (m : Int × Int) e => (max m.1 e.1, max m.2 e.2.1)) (0, 0)
    (m.1 + 1, m.2 + 1)

/-- `ToDense(DenseMatrix& dense)` (include/coomatrix.hpp:515-534). -/
def toDenseInto [Zero α] [Add α] (C : Coo α) (dense : Dense α) : Res (Dense α) := do
  let dense ← dense.setSize C.findSize.1 C.findSize.2
  C.entries.foldlM (fun D t => do
    let old ← D.get t.1 t.2.1
    D.put t.1 t.2.1 (old + t.2.2)) (dense.fill 0)

/-- `ToDense()` (include/coomatrix.hpp:506-513). -/
def toDense [Zero α] [Add α] (C : Coo α) : Res (Dense α) := C.toDenseInto Dense.empty

/-- `PermuteRows(perm)` (include/coomatrix.hpp:536-549). -/
def permuteRows (C : Coo α) (perm : List Int) : Res (Coo α) := do
  cassert ((perm.length : Int) = C.findSize.1)
  let es ← C.entries.mapM (fun e => do
    let i ← rd perm e.1
    .ok (i, e.2.1, e.2.2))
  .ok { C with entries := es }

/-- `PermuteCols(perm)` (include/coomatrix.hpp:551-564). -/
def permuteCols (C : Coo α) (perm : List Int) : Res (Coo α) := do
  cassert ((perm.length : Int) = C.findSize.2)
  let es ← C.entries.mapM (fun e => do
    let j ← rd perm e.2.1
    .ok (e.1, j, e.2.2))
  .ok { C with entries := es }

/-- `PermuteRowsCols(row_perm, col_perm)` (include/coomatrix.hpp:566-581). -/
def permuteRowsCols (C : Coo α) (rowPerm colPerm : List Int) : Res (Coo α) := do
  cassert ((rowPerm.length : Int) = C.findSize.1)
  cassert ((colPerm.length : Int) = C.findSize.2)
  let es ← C.entries.mapM (fun e => do
    let i ← rd rowPerm e.1
    let j ← rd colPerm e.2.1
    .ok (i, j, e.2.2))
  .ok { C with entries := es }

/-- Body of the counting loop of `ToSparse()` (include/coomatrix.hpp:600-612): `indptr` and `index_map`. -/
def countStep (st : List Int × List (List (Int × Int))) (e : Int × Int × α) :
    Res (List Int × List (List (Int × Int))) := do
  let m ← rd st.2 e.1
  match m.lookup e.2.1 with
  | some _ => .ok st
  | none => do
    let x ← rd st.1 (e.1 + 1)
    let p ← wr st.1 (e.1 + 1) (x + 1)
    let ms ← wr st.2 e.1 (m ++ [(e.2.1, (m.length : Int))])
    .ok (p, ms)

/-- Body of the filling loop of `ToSparse()` (include/coomatrix.hpp:622-631): `indices` and `data`; `at` throws
if the key is missing. -/
def fillStep [Add α] (indptr : List Int) (indexMap : List (List (Int × Int))) (out : List Int × List α)
    (e : Int × Int × α) : Res (List Int × List α) := do
  let p ← rd indptr e.1
  let m ← rd indexMap e.1
  match m.lookup e.2.1 with
  | none => .error .threw
  | some k => do
    let ix ← wr out.1 (p + k) e.2.1
    let d ← rd out.2 (p + k)
    let dt ← wr out.2 (p + k) (d + e.2.2)
    .ok (ix, dt)

/-- `ToSparse()` (include/coomatrix.hpp:583-634). -/
def toSparse [Zero α] [Add α] (C : Coo α) : Res (Csr α) := do
  let rows := C.findSize.1
  let cols := C.findSize.2
  if C.entries.isEmpty then Csr.zero rows cols
  else
    let indptr ← mkVec (rows + 1) (0 : Int)
    let indexMap ← mkVec rows ([] : List (Int × Int))
    let st ← C.entries.foldlM countStep (indptr, indexMap)
    let indptr ← partialSum st.1
    let nnz ← rd indptr ((indptr.length : Int) - 1)
    let indices ← mkVec nnz (0 : Int)
    let data ← mkVec nnz (0 : α)
    let out ← C.entries.foldlM (fillStep indptr st.2) (indices, data)
    Csr.ofArrays indptr out.1 out.2 rows cols

/-- `Mult(input, output)` (include/coomatrix.hpp:636-652). -/
def mult [Zero α] [Add α] [Mul α] (C : Coo α) (input output : List α) : Res (List α) := do
  cassert (C.rows = output.length)
  cassert (C.cols = input.length)
  C.entries.foldlM (fun out e => do
    let x ← vrd input e.2.1
    let old ← vrd out e.1
    vwr out e.1 (old + e.2.2 * x)) (List.replicate output.length 0)

/-- `MultAT(input, output)` (include/coomatrix.hpp:654-670). -/
def multAT [Zero α] [Add α] [Mul α] (C : Coo α) (input output : List α) : Res (List α) := do
  cassert (C.rows = output.length)
  cassert (C.cols = input.length)
  C.entries.foldlM (fun out e => do
    let x ← vrd input e.1
    let old ← vrd out e.2.1
    vwr out e.2.1 (old + e.2.2 * x)) (List.replicate output.length 0)

/-- `EliminateZeros(double tolerance)` (include/coomatrix.hpp:689-700). -/
def eliminateZeros [LinearOrder α] [AddGroup α] (C : Coo α) (tolerance : α) : Coo α :=
  { C with entries := C.entries.filter (fun e => ¬ |e.2.2| < tolerance) }

end Coo
end Linalg
