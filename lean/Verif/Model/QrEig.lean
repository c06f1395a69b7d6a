import Verif.Model.Examples

/-!
# The QR eigenvalue iteration (examples/dense/dense_qr.cpp) and `symmetrize` (examples/include/ex_utilities.hpp)

Printing and the reference solution by `EigenSolver` are left out; the matrix and the number of passes are arguments.
-/

namespace Linalg
open Cpp

namespace Example
variable {α : Type}

/-- `symmetrize(A)` (examples/include/ex_utilities.hpp:45-57). -/
def symmetrize (A : Dense α) : Res (Dense α) :=
  forUp 0 A.rows A (fun i D =>
    forUp i A.cols D (fun j D => do
      let x ← D.get j i
      D.put i j x))

/-- `DenseMatrix U(n)` with ones put on the diagonal (examples/dense/dense_qr.cpp:145-152). -/
def identity [Zero α] [One α] (n : Int) : Res (Dense α) := do
  let U ← Dense.zeros n n
  forUp 0 n U (fun i U => U.put i i 1)

/-- One pass of the loop (examples/dense/dense_qr.cpp:155-164); the state is `(A, U, buffer)`. -/
def qrEigStep [Field α] [DecidableEq α] (sqrt : α → α) (s : Dense α × Dense α × Dense α) : Res (Dense α × Dense α × Dense α) := do
  let qr ← qrDecomp sqrt s.1
  let A ← qr.2.multDInto qr.1 s.1
  let buffer ← s.2.1.multDInto qr.1 s.2.2
  .ok (A, buffer, s.2.1)

/-- `QR_eig()` on the matrix `A` with `N` passes (examples/dense/dense_qr.cpp:135-167): the `T` and `U` that it prints. -/
def qrEig [Field α] [DecidableEq α] (sqrt : α → α) (A : Dense α) (N : Int) : Res (Dense α × Dense α) := do
  let U ← identity A.rows
  let buffer ← Dense.zeros A.rows A.rows
  let s ← forUp 0 N (A, U, buffer) (fun _ s => qrEigStep sqrt s)
  .ok (s.1, s.2.1)

end Example
end Linalg
