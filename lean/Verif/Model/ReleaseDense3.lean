import Verif.Model.ReleaseDense2

/-!
# AddSubMatrix and SetSubMatrixTranspose with and without NDEBUG

As in `Model/Dense`, with the build as a parameter.  The argument is a different object than the matrix that is changed.
-/

namespace Linalg
namespace Rel
open Cpp

variable {α : Type}

/-- `AddSubMatrix(rows, cols, dense)` (src/densematrix.cpp:552-567). -/
def daddSub [Add α] (b : Build) (D : Dense α) (rows cols : List Int) (dense : Dense α) : Res (Dense α) := do
  b.assert ((rows.length : Int) = dense.rows)
  b.assert ((cols.length : Int) = dense.cols)
  forUp 0 dense.cols D (fun j D =>
    forUp 0 dense.rows D (fun i D => do
      let r ← rd rows i
      let c ← rd cols j
      let x ← dget b dense i j
      let old ← dget b D r c
      dput b D r c (old + x)))

/-- `SetSubMatrixTranspose(start_i, start_j, dense)` (src/densematrix.cpp:527-550). -/
def dsetSubT (b : Build) (D : Dense α) (si sj : Int) (dense : Dense α) : Res (Dense α) := do
  drange b D si sj (si + dense.cols) (sj + dense.rows)
  forUp 0 (sj + dense.rows - sj) D (fun j D =>
    forUp 0 (si + dense.cols - si) D (fun i D => do
      let x ← dget b dense j i
      dput b D (i + si) (j + sj) x))

end Rel
end Linalg
