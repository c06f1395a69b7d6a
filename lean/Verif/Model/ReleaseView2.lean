import Verif.Model.Release

/-!
# Divisions, combinations and parts of vectors with and without NDEBUG

As in `Model/View`, with the build as a parameter.  A division is a parameter too: without the assertion its divisor may be zero, which is infinity or NaN for
`double` and undefined for `int`.
-/

namespace Linalg
namespace Rel
open Cpp

variable {α : Type}

/-- The division of `int`: undefined if the divisor is zero. -/
def quot [Zero α] [Div α] [DecidableEq α] (a c : α) : Res α := if c = 0 then .error .divZero else .ok (a / c)

/-- `lhs /= rhs`, entry by entry (include/vectorview.hpp:531-546). -/
def divAssign [Zero α] [DecidableEq α] (b : Build) (dv : α → α → Res α) (x y : View) (m : List α) : Res (List α) := do
  b.assert (x.size = y.size)
  forUp 0 x.size m (fun i m => do
    let c ← get b y m i
    b.assert (c ≠ 0)
    let a ← get b x m i
    let q ← dv a c
    put b x m i q)

/-- `vect /= val` (include/vectorview.hpp:605-616). -/
def divScalar [Zero α] [DecidableEq α] (b : Build) (dv : α → α → Res α) (x : View) (val : α) (m : List α) : Res (List α) := do
  b.assert (val ≠ 0)
  forUp 0 x.size m (fun i m => do
    let a ← rd m (x.off + i)
    let q ← dv a val
    wr m (x.off + i) q)

/-- `Add(alpha, x, beta, y, gamma, z)` (include/vectorview.hpp:819-831). -/
def combine [Add α] [Mul α] (b : Build) (alpha : α) (x : View) (beta : α) (y : View) (gamma : α) (z : View) (m : List α) : Res (List α) := do
  b.assert (y.size = x.size)
  b.assert (z.size = x.size)
  forUp 0 x.size m (fun i m => do
    let u ← get b x m i
    let v ← get b y m i
    let w ← get b z m i
    put b z m i ((alpha * u) + (beta * v) + (gamma * w)))

/-- `BlockVector::GetBlock(int block)` (include/blockvector.hpp:130-139); `v` is the vector itself.  The second assertion is that of the constructor
(include/vectorview.hpp:204-209). -/
def getBlock (b : Build) (v : View) (offsets : List Int) (block : Int) : Res View := do
  b.assert (block < (offsets.length : Int) - 1)
  let lo ← rd offsets block
  let hi ← rd offsets (block + 1)
  b.assert (hi - lo ≥ 0)
  .ok ⟨v.off + lo, hi - lo⟩

/-- `DenseMatrix::GetColView(int col)` (include/densematrix.hpp:700-706), a view of `D.data`. -/
def getColView (b : Build) (D : Dense α) (col : Int) : Res View := do
  b.assert (col ≥ 0 ∧ col < D.cols)
  .ok ⟨col * D.rows, D.rows⟩

end Rel
end Linalg
