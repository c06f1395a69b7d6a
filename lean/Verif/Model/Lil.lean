import Verif.Model.Sparse

/-!
# include/lilmatrix.hpp

`LilMatrix<T>`, function by function; simplifications as for `CooMatrix`.  `std::list` rows are lists with
`emplace_front` = cons.  `row.sort()` is a parameter: the theorems only use that it returns the same nodes
with non-decreasing columns.
-/

namespace Linalg
open Cpp

/-- `class LilMatrix<T>` (include/lilmatrix.hpp:175-177), with `rows_`, `cols_` from `Operator`. -/
structure Lil (α : Type) where
  rows : Int
  cols : Int
  sizeSet : Bool
  entries : List (List (Int × α))
  deriving DecidableEq, Repr

namespace Lil
variable {α : Type}

/-- `LilMatrix()` (include/lilmatrix.hpp:181-185). -/
def new : Lil α := ⟨0, 0, false, []⟩

/-- `LilMatrix(int rows, int cols)` (include/lilmatrix.hpp:193-198). -/
def ofSize (rows cols : Int) : Res (Lil α) := do
  cassert (rows ≥ 0)
  cassert (cols ≥ 0)
  let es ← mkVec rows []
  .ok ⟨rows, cols, true, es⟩

/-- `FindSize()` (include/lilmatrix.hpp:495-515); `Rows()` and `Cols()` (231-247) return its components. -/
def findSize (L : Lil α) : Int × Int :=
  if L.sizeSet then (L.rows, L.cols)
  else
    let cols := L.entries.foldl (fun m row => row.foldl (fun (m : Int) (e : Int × α) => max m e.1) m) 0
    ((L.entries.length : Int) + 1, cols + 1)

/-- `SetSize(int rows, int cols)` (include/lilmatrix.hpp:249-256). -/
def setSize (L : Lil α) (rows cols : Int) : Lil α := { L with sizeSet := true, rows := rows, cols := cols }

/-- `Add(int i, int j, T val)` (include/lilmatrix.hpp:258-276). -/
def add (L : Lil α) (i j : Int) (val : α) : Res (Lil α) := do
  cassert (i ≥ 0)
  cassert (j ≥ 0)
  let es ← (if L.sizeSet then do
      cassert (i < L.rows)
      cassert (j < L.cols)
      .ok L.entries
    else if i ≥ L.entries.length then .ok (resize L.entries (i + 1).toNat [])
    else .ok L.entries : Res (List (List (Int × α))))
  let row ← rd es i
  let es ← wr es i ((j, val) :: row)
  .ok { L with entries := es }

/-- `AddSym(int i, int j, T val)` (include/lilmatrix.hpp:278-287). -/
def addSym (L : Lil α) (i j : Int) (val : α) : Res (Lil α) := do
  let L ← L.add i j val
  if i ≠ j then L.add j i val else .ok L

/-- `Add(rows, cols, const DenseMatrix& values)` (include/lilmatrix.hpp:296-319); `Add(indices, values)`
(289-294) passes the list twice. -/
def addBlock (L : Lil α) (rows cols : List Int) (values : Dense α) : Res (Lil α) := do
  cassert ((rows.length : Int) = values.rows)
  cassert ((cols.length : Int) = values.cols)
  forUp 0 values.cols L (fun j L => do
    let col ← rd cols j
    forUp 0 values.rows L (fun i L => do
      let row ← rd rows i
      let val ← values.get i j
      L.add row col val))

/-- `ToDense(DenseMatrix& dense)` (include/lilmatrix.hpp:330-350). -/
def toDenseInto [Zero α] [Add α] (L : Lil α) (dense : Dense α) : Res (Dense α) := do
  let dense ← dense.setSize L.findSize.1 L.findSize.2
  forUp 0 (L.entries.length : Int) (dense.fill 0) (fun i D => do
    let row ← rd L.entries i
    row.foldlM (fun (D : Dense α) node => do
      let old ← D.get i node.1
      D.put i node.1 (old + node.2)) D)

/-- `ToDense()` (include/lilmatrix.hpp:321-328). -/
def toDense [Zero α] [Add α] (L : Lil α) : Res (Dense α) := L.toDenseInto Dense.empty

/-- Body of the loop over the nodes of a row in `ToSparse()` (include/lilmatrix.hpp:387-402). -/
def mergeStep [Add α] (currentRow : Int) (e : List Int × List α) (node : Int × α) : Res (List Int × List α) :=
  if (e.1.length : Int) ≠ currentRow ∧ e.1.getLast? = some node.1 then do
    let d ← rd e.2 ((e.2.length : Int) - 1)
    let dt ← wr e.2 ((e.2.length : Int) - 1) (d + node.2)
    .ok (e.1, dt)
  else .ok (e.1 ++ [node.1], e.2 ++ [node.2])

/-- `ToSparse()` (include/lilmatrix.hpp:352-408).  Besides the sparse matrix, returns the matrix itself, whose
(mutable) rows have been sorted. -/
def toSparse [Add α] (sort : List (Int × α) → List (Int × α)) (L : Lil α) : Res (Csr α × Lil α) := do
  let rows := L.findSize.1
  let cols := L.findSize.2
  if L.entries.length = 0 then
    let A ← Csr.zero rows cols
    .ok (A, L)
  else
    let entries := L.entries.map sort
    let indptr ← mkVec (rows + 1) (0 : Int)
    let indptr ← wr indptr 0 0
    let st ← forUp 0 (entries.length : Int) (indptr, ([] : List Int), ([] : List α)) (fun i st => do
      let currentRow ← rd st.1 i
      let row ← rd entries i
      let e ← row.foldlM (mergeStep currentRow) st.2
      let p ← wr st.1 (i + 1) (e.2.length : Int)
      .ok (p, e.1, e.2))
    let A ← Csr.ofArrays st.1 st.2.1 st.2.2 rows cols
    .ok (A, { L with entries := entries })

/-- `Mult(input, output)` (include/lilmatrix.hpp:410-432). -/
def mult [Zero α] [Add α] [Mul α] (L : Lil α) (input output : List α) : Res (List α) := do
  cassert (L.findSize.1 = output.length)
  cassert (L.findSize.2 = input.length)
  forUp 0 (L.entries.length : Int) (List.replicate output.length 0) (fun i out => do
    let row ← rd L.entries i
    row.foldlM (fun out node => do
      let x ← vrd input node.1
      let old ← vrd out i
      vwr out i (old + node.2 * x)) out)

/-- `MultAT(input, output)` (include/lilmatrix.hpp:434-456). -/
def multAT [Zero α] [Add α] [Mul α] (L : Lil α) (input output : List α) : Res (List α) := do
  cassert (L.findSize.1 = output.length)
  cassert (L.findSize.2 = input.length)
  forUp 0 (L.entries.length : Int) (List.replicate output.length 0) (fun i out => do
    let row ← rd L.entries i
    row.foldlM (fun out node => do
      let x ← vrd input i
      let old ← vrd out node.1
      vwr out node.1 (old + node.2 * x)) out)

/-- `EliminateZeros(double tolerance)` (include/lilmatrix.hpp:481-493). -/
def eliminateZeros [LinearOrder α] [AddGroup α] (L : Lil α) (tolerance : α) : Lil α :=
  { L with entries := L.entries.map (fun row => row.filter (fun e => ¬ |e.2| < tolerance)) }

end Lil
end Linalg
