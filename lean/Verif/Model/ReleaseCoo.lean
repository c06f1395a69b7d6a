import Verif.Model.ReleaseDense

/-!
# Adding lists to a CooMatrix with and without NDEBUG

As in `Model/Coo`, with the build as a parameter.
-/

namespace Linalg
namespace Rel
open Cpp

variable {α : Type}

/-- `SetSize(int rows, int cols)` (include/coomatrix.hpp:305-315). -/
def cooSetSize (b : Build) (C : Coo α) (rows cols : Int) : Res (Coo α) := do
  b.assert (rows ≥ 0)
  b.assert (cols ≥ 0)
  .ok { C with sizeSet := true, rows := rows, cols := cols }

/-- `Add(rows, cols, const DenseMatrix& values)` (include/coomatrix.hpp:359-382). -/
def cooAddBlock (b : Build) (C : Coo α) (rows cols : List Int) (values : Dense α) : Res (Coo α) := do
  b.assert ((rows.length : Int) = values.rows)
  b.assert ((cols.length : Int) = values.cols)
  forUp 0 values.cols C (fun j C => do
    let col ← rd cols j
    forUp 0 values.rows C (fun i C => do
      let row ← rd rows i
      let val ← dget b values i j
      cooAdd b C row col val))

/-- `Add(rows, cols, T scale, const DenseMatrix& values)` (include/coomatrix.hpp:391-415). -/
def cooAddBlockScaled [Mul α] (b : Build) (C : Coo α) (rows cols : List Int) (scale : α) (values : Dense α) : Res (Coo α) := do
  b.assert ((rows.length : Int) = values.rows)
  b.assert ((cols.length : Int) = values.cols)
  forUp 0 values.cols C (fun j C => do
    let col ← rd cols j
    forUp 0 values.rows C (fun i C => do
      let row ← rd rows i
      let val ← dget b values i j
      cooAdd b C row col (scale * val)))

/-- `Add(rows, int col, const VectorView<T>& values)` (include/coomatrix.hpp:418-430). -/
def cooAddCol (b : Build) (C : Coo α) (rows : List Int) (col : Int) (values : List α) : Res (Coo α) := do
  b.assert (rows.length = values.length)
  forUp 0 (rows.length : Int) C (fun i C => do
    let row ← rd rows i
    let val ← vrd b values i
    cooAdd b C row col val)

/-- `Add(int row, cols, const VectorView<T>& values)` (include/coomatrix.hpp:432-444). -/
def cooAddRow (b : Build) (C : Coo α) (row : Int) (cols : List Int) (values : List α) : Res (Coo α) := do
  b.assert (cols.length = values.length)
  forUp 0 (cols.length : Int) C (fun i C => do
    let col ← rd cols i
    let val ← vrd b values i
    cooAdd b C row col val)

/-- `Add(rows, int col, T scale, const VectorView<T>& values)` (include/coomatrix.hpp:446-458). -/
def cooAddColScaled [Mul α] (b : Build) (C : Coo α) (rows : List Int) (col : Int) (scale : α) (values : List α) : Res (Coo α) := do
  b.assert (rows.length = values.length)
  forUp 0 (rows.length : Int) C (fun i C => do
    let row ← rd rows i
    let val ← vrd b values i
    cooAdd b C row col (scale * val))

/-- `Add(int row, cols, T scale, const VectorView<T>& values)` (include/coomatrix.hpp:460-472). -/
def cooAddRowScaled [Mul α] (b : Build) (C : Coo α) (row : Int) (cols : List Int) (scale : α) (values : List α) : Res (Coo α) := do
  b.assert (cols.length = values.length)
  forUp 0 (cols.length : Int) C (fun i C => do
    let col ← rd cols i
    let val ← vrd b values i
    cooAdd b C row col (scale * val))

/-- `Add(rows, cols, const U& values)` for an indexable object (include/coomatrix.hpp:474-488). -/
def cooAddZip (b : Build) (C : Coo α) (rows cols : List Int) (values : List α) : Res (Coo α) := do
  b.assert (rows.length = values.length)
  b.assert (cols.length = values.length)
  forUp 0 (cols.length : Int) C (fun i C => do
    let row ← rd rows i
    let col ← rd cols i
    let val ← rd values i
    cooAdd b C row col val)

/-- `Add(rows, cols, T scale, const U& values)` (include/coomatrix.hpp:490-504). -/
def cooAddZipScaled [Mul α] (b : Build) (C : Coo α) (rows cols : List Int) (scale : α) (values : List α) : Res (Coo α) := do
  b.assert (rows.length = values.length)
  b.assert (cols.length = values.length)
  forUp 0 (cols.length : Int) C (fun i C => do
    let row ← rd rows i
    let col ← rd cols i
    let val ← rd values i
    cooAdd b C row col (scale * val))

/-- `PermuteRows(perm)` (include/coomatrix.hpp:536-549). -/
def cooPermuteRows (b : Build) (C : Coo α) (perm : List Int) : Res (Coo α) := do
  b.assert ((perm.length : Int) = C.findSize.1)
  let es ← C.entries.mapM (fun e => do
    let i ← rd perm e.1
    .ok (i, e.2.1, e.2.2))
  .ok { C with entries := es }

/-- `PermuteCols(perm)` (include/coomatrix.hpp:551-564). -/
def cooPermuteCols (b : Build) (C : Coo α) (perm : List Int) : Res (Coo α) := do
  b.assert ((perm.length : Int) = C.findSize.2)
  let es ← C.entries.mapM (fun e => do
    let j ← rd perm e.2.1
    .ok (e.1, j, e.2.2))
  .ok { C with entries := es }

/-- `PermuteRowsCols(row_perm, col_perm)` (include/coomatrix.hpp:566-581). -/
def cooPermuteRowsCols (b : Build) (C : Coo α) (rowPerm colPerm : List Int) : Res (Coo α) := do
  b.assert ((rowPerm.length : Int) = C.findSize.1)
  b.assert ((colPerm.length : Int) = C.findSize.2)
  let es ← C.entries.mapM (fun e => do
    let i ← rd rowPerm e.1
    let j ← rd colPerm e.2.1
    .ok (i, j, e.2.2))
  .ok { C with entries := es }

end Rel
end Linalg
