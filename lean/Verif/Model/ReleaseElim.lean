import Verif.Model.ReleaseSparse2

/-!
# EliminateCol(marker, x, b) with and without NDEBUG

As in `Model/Sparse`, with the build as a parameter.
-/

namespace Linalg
namespace Rel
open Cpp

variable {α : Type}

/-- `EliminateCol(marker, x, b)` (include/sparsematrix.hpp:1453-1470). -/
def eliminateColRhs [Zero α] [Sub α] [Mul α] [DecidableEq α] (bd : Build) (A : Csr α) (marker : List Bool) (x b : List α) : Res (Csr α × List α) := do
  bd.assert ((marker.length : Int) ≥ A.cols)
  let st ← forUp 0 A.rows (A.data, b) (fun row st =>
    A.forRow row st (fun j st => do
      let c ← rd A.indices j
      let m ← rd marker c
      let d ← rd st.1 j
      if m = true ∧ d ≠ 0 then
        let xv ← vrd bd x c
        let old ← vrd bd st.2 row
        let b ← vwr bd st.2 row (old - d * xv)
        let data ← wr st.1 j 0
        .ok (data, b)
      else .ok st))
  .ok ({ A with data := st.1 }, st.2)

end Rel
end Linalg
