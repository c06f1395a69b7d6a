import Verif.Model.ReleaseLil
import Verif.Model.ReleaseDense

/-! # Adding a dense matrix to a LilMatrix with and without NDEBUG -/

namespace Linalg
namespace Rel
open Cpp

variable {α : Type}

/-- `Add(rows, cols, const DenseMatrix& values)` (include/lilmatrix.hpp:296-319); `Add(indices, values)` (289-294) passes the list twice. -/
def lilAddBlock (b : Build) (L : Lil α) (rows cols : List Int) (values : Dense α) : Res (Lil α) := do
  b.assert ((rows.length : Int) = values.rows)
  b.assert ((cols.length : Int) = values.cols)
  forUp 0 values.cols L (fun j L => do
    let col ← rd cols j
    forUp 0 values.rows L (fun i L => do
      let row ← rd rows i
      let val ← dget b values i j
      lilAdd b L row col val))

end Rel
end Linalg
