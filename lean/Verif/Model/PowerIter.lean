import Verif.Model.Solvers
import Verif.Model.View

/-!
# Power iteration and graph Laplacians (examples/sparse/sparse_basics.cpp)

The output of the verbose mode is left out.  `Randomize` fills the start vector with some numbers: the start is a parameter.
-/

namespace Linalg
open Cpp

namespace Example
variable {α : Type}

section Power
variable [Field α] [LinearOrder α]

/-- One pass of the loop of `PowerIterate` up to the stopping test (examples/sparse/sparse_basics.cpp:18-23): the new `x`, `y` and
`rayleigh`. -/
def powerStep (sqrt : α → α) (A : Op α) (x y : List α) : Res (List α × List α × α) := do
  let y ← A.multResize x y
  let a ← Vec.inner y x
  let b ← Vec.inner x x
  let ray ← fdiv a b
  let nrm ← Vec.l2Norm sqrt y
  let x ← (⟨0, (y.length : Int)⟩ : View).divScalar nrm y
  .ok (x, y, ray)

/-- The stopping test (examples/sparse/sparse_basics.cpp:32).  When `rayleigh` is zero the quotient is infinite or not a number and the
test is false. -/
def powerStop (tol ray old : α) : Bool := ray ≠ 0 ∧ |ray - old| / |ray| < tol

/-- The loop of `PowerIterate` with `k` passes left (examples/sparse/sparse_basics.cpp:16-38). -/
def powerLoop (sqrt : α → α) (A : Op α) (tol : α) : Nat → List α → List α → α → α → Res α
  | 0, _, _, ray, _ => .ok ray
  | k + 1, x, y, _, old => do
    let s ← powerStep sqrt A x y
    if powerStop tol s.2.2 old then .ok s.2.2
    else powerLoop sqrt A tol k s.1 s.2.1 s.2.2 s.2.2

/-- `PowerIterate(A, max_iter, tol, verbose)` started from `x` (examples/sparse/sparse_basics.cpp:5-41). -/
def powerIterate (sqrt : α → α) (A : Op α) (x : List α) (maxIter : Int) (tol : α) : Res α := do
  let y ← mkVec A.rows (0 : α)
  let x ← (⟨0, (x.length : Int)⟩ : View).normalize sqrt x
  powerLoop sqrt A tol maxIter.toNat x y 0 0

end Power

/-- One row of `AdjToLaplacian` (examples/sparse/sparse_basics.cpp:53-76): `diag_index`, `val` and the values. -/
def lapRow [Zero α] [One α] [Add α] [Neg α] (A : Csr α) (row : Int) (data : List α) : Res (List α) := do
  let s ← A.forRow row ((-1 : Int), (0 : α), data) (fun j s => do
    let col ← rd A.indices j
    if col = row then .ok (j, s.2.1, s.2.2)
    else do
      let data ← wr s.2.2 j (-1)
      .ok (s.1, s.2.1 + 1, data))
  cassert (s.1 ≥ 0)
  wr s.2.2 s.1 s.2.1

/-- `AdjToLaplacian(A)` (examples/sparse/sparse_basics.cpp:43-79). -/
def adjToLaplacian [Zero α] [One α] [Add α] [Neg α] (A : Csr α) : Res (Csr α) := do
  let data ← forUp 0 A.rows A.data (fun row data => lapRow A row data)
  .ok { A with data := data }

end Example
end Linalg
