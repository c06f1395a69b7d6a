import Verif.Model.Floats
import Verif.Model.Examples

/-!
# The functions that divide by elements, for floating-point numbers

As `Model/Floats.lean`: a division by zero gives an infinity or NaN, and `scale != 0` is the comparison of the type.
-/

namespace Linalg
open Cpp Floats

variable {F : Type} [Floats F]

namespace Flt

/-- `lhs /= rhs`, entry by entry, of two vectors that share no memory (include/vectorview.hpp:531-546). -/
def divAssign (x y : List F) : Res (List F) := do
  cassert (x.length = y.length)
  forUp 0 (x.length : Int) x (fun i x => do
    let b ← vrd y i
    cassert (eq b 0 = false)
    let a ← vrd x i
    vwr x i (a / b))

/-- `val / vect` (include/vector.hpp:282-291). -/
def scalarOver (val : F) (x : List F) : List F := x.map (fun a => val / a)

/-- `SparseMatrix::operator/=(U val)` (include/sparsematrix.hpp:1182-1194). -/
def sparseDiv (A : Csr F) (val : F) : Res (Csr F) := do
  cassert (eq val 0 = false)
  .ok { A with data := A.data.map (fun d => d / val) }

/-- `SparseMatrix::InverseScaleRows(values)` (include/sparsematrix.hpp:1313-1328). -/
def sparseInvRows (A : Csr F) (values : List F) : Res (Csr F) := do
  cassert ((values.length : Int) = A.rows)
  let data ← forUp 0 A.rows A.data (fun i data => do
    let s ← rd values i
    cassert (eq s 0 = false)
    A.forRow i data (fun j data => do
      let d ← rd data j
      wr data j (d / s)))
  .ok { A with data := data }

/-- `SparseMatrix::InverseScaleCols(values)` (include/sparsematrix.hpp:1330-1345). -/
def sparseInvCols (A : Csr F) (values : List F) : Res (Csr F) := do
  cassert ((values.length : Int) = A.cols)
  let data ← forUp 0 A.rows A.data (fun i data =>
    A.forRow i data (fun j data => do
      let c ← rd A.indices j
      let s ← rd values c
      cassert (eq s 0 = false)
      let d ← rd data j
      wr data j (d / s)))
  .ok { A with data := data }

/-- `DenseMatrix::operator/=(double val)` (src/densematrix.cpp:323-333). -/
def denseDiv (D : Dense F) (val : F) : Res (Dense F) := do
  cassert (eq val 0 = false)
  .ok { D with data := D.data.map (fun d => d / val) }

/-- `DenseMatrix::InverseScaleRows(values)` (include/densematrix.hpp:817-829). -/
def denseInvRows (D : Dense F) (values : List F) : Res (Dense F) :=
  forUp 0 D.cols D (fun j D =>
    forUp 0 D.rows D (fun i D => do
      let s ← rd values i
      cassert (eq s 0 = false)
      let x ← D.get i j
      D.put i j (x / s)))

/-- `DenseMatrix::InverseScaleCols(values)` (include/densematrix.hpp:831-844). -/
def denseInvCols (D : Dense F) (values : List F) : Res (Dense F) :=
  forUp 0 D.cols D (fun j D => do
    let s ← rd values j
    cassert (eq s 0 = false)
    forUp 0 D.rows D (fun i D => do
      let x ← D.get i j
      D.put i j (x / s)))

/-! ## examples/dense/dense_lu.cpp -/

/-- One pass of the loop over `j` of `lu_decomp` (examples/dense/dense_lu.cpp:13-23). -/
def luElim (n i j : Int) (s : Dense F × Dense F) : Res (Dense F × Dense F) := do
  let x ← s.2.get j i
  let y ← s.2.get i i
  let aji := x / y
  let U ← Example.luRow n i j aji s.2
  let L ← s.1.put j i aji
  .ok (L, U)

/-- `lu_decomp(A)` (examples/dense/dense_lu.cpp:3-29). -/
def luDecomp (A : Dense F) : Res (Dense F × Dense F) := do
  let L ← Dense.zeros A.rows A.rows
  forUp 0 A.rows (L, A) (fun i s => do
    let s ← forUp (i + 1) A.rows s (fun j s => luElim A.rows i j s)
    let L ← s.1.put i i 1
    .ok (L, s.2))

/-- `forward_elim(L, b)` (examples/dense/dense_lu.cpp:31-50). -/
def forwardElim (L : Dense F) (b : List F) : Res (List F) := do
  let x ← mkVec L.rows (0 : F)
  forUp 0 L.rows x (fun i x => do
    let b0 ← vrd b i
    let s ← forDown (i - 1) (-1) b0 (fun j s => do
      let l ← L.get i j
      let xj ← vrd x j
      .ok (s - l * xj))
    let d ← L.get i i
    vwr x i (s / d))

/-- `back_solve(U, b)` (examples/dense/dense_lu.cpp:52-71). -/
def backSolve (U : Dense F) (b : List F) : Res (List F) := do
  let x ← mkVec U.rows (0 : F)
  forDown (U.rows - 1) (-1) x (fun i x => do
    let b0 ← vrd b i
    let s ← forUp (i + 1) U.rows b0 (fun j s => do
      let u ← U.get i j
      let xj ← vrd x j
      .ok (s - u * xj))
    let d ← U.get i i
    vwr x i (s / d))

/-- `solve_lu(L, U, b)` (examples/dense/dense_lu.cpp:73-79). -/
def solveLu (L U : Dense F) (b : List F) : Res (List F) := do
  let y ← forwardElim L b
  backSolve U y

end Flt
end Linalg
