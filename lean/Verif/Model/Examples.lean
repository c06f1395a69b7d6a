import Verif.Model.Solvers
import Verif.Model.View

/-!
# Example programs (examples/dense/dense_lu.cpp, examples/dense/dense_qr.cpp)

The factorisations and triangular solves; the drivers that print and time are left out.  A division by zero is the outcome
`divZero`.
-/

namespace Linalg
open Cpp

namespace Example
variable {α : Type}

/-- `U(j, k) -= a_ji * U(i, k)` for `k = i .. n-1` (examples/dense/dense_lu.cpp:17-20). -/
def luRow [Sub α] [Mul α] (n i j : Int) (aji : α) (U : Dense α) : Res (Dense α) :=
  forUp i n U (fun k U => do
    let u ← U.get j k
    let v ← U.get i k
    U.put j k (u - aji * v))

/-- One pass of the loop over `j` (examples/dense/dense_lu.cpp:13-23). -/
def luElim [Zero α] [Sub α] [Mul α] [Div α] [DecidableEq α] (n i j : Int) (s : Dense α × Dense α) :
    Res (Dense α × Dense α) := do
  let x ← s.2.get j i
  let y ← s.2.get i i
  let aji ← fdiv x y
  let U ← luRow n i j aji s.2
  let L ← s.1.put j i aji
  .ok (L, U)

/-- One pass of the loop over `i` (examples/dense/dense_lu.cpp:11-26). -/
def luStep [Zero α] [One α] [Sub α] [Mul α] [Div α] [DecidableEq α] (n i : Int) (s : Dense α × Dense α) :
    Res (Dense α × Dense α) := do
  let s ← forUp (i + 1) n s (fun j s => luElim n i j s)
  let L ← s.1.put i i 1
  .ok (L, s.2)

/-- `lu_decomp(A)` (examples/dense/dense_lu.cpp:3-29). -/
def luDecomp [Zero α] [One α] [Sub α] [Mul α] [Div α] [DecidableEq α] (A : Dense α) : Res (Dense α × Dense α) := do
  let L ← Dense.zeros A.rows A.rows
  forUp 0 A.rows (L, A) (fun i s => luStep A.rows i s)

/-- One pass of the loop of `forward_elim` (examples/dense/dense_lu.cpp:37-47). -/
def feStep [Zero α] [Sub α] [Mul α] [Div α] [DecidableEq α] (L : Dense α) (b : List α) (i : Int) (x : List α) :
    Res (List α) := do
  let b0 ← vrd b i
  let s ← forDown (i - 1) (-1) b0 (fun j s => do
    let l ← L.get i j
    let xj ← vrd x j
    .ok (s - l * xj))
  let d ← L.get i i
  let q ← fdiv s d
  vwr x i q

/-- `forward_elim(L, b)` (examples/dense/dense_lu.cpp:31-50). -/
def forwardElim [Zero α] [Sub α] [Mul α] [Div α] [DecidableEq α] (L : Dense α) (b : List α) : Res (List α) := do
  let x ← mkVec L.rows (0 : α)
  forUp 0 L.rows x (fun i x => feStep L b i x)

/-- One pass of the loop of `back_solve` (examples/dense/dense_lu.cpp:58-68). -/
def bsStep [Zero α] [Sub α] [Mul α] [Div α] [DecidableEq α] (U : Dense α) (b : List α) (i : Int) (x : List α) :
    Res (List α) := do
  let b0 ← vrd b i
  let s ← forUp (i + 1) U.rows b0 (fun j s => do
    let u ← U.get i j
    let xj ← vrd x j
    .ok (s - u * xj))
  let d ← U.get i i
  let q ← fdiv s d
  vwr x i q

/-- `back_solve(U, b)` (examples/dense/dense_lu.cpp:52-71, examples/dense/dense_qr.cpp:3-22). -/
def backSolve [Zero α] [Sub α] [Mul α] [Div α] [DecidableEq α] (U : Dense α) (b : List α) : Res (List α) := do
  let x ← mkVec U.rows (0 : α)
  forDown (U.rows - 1) (-1) x (fun i x => bsStep U b i x)

/-- `solve_lu(L, U, b)` (examples/dense/dense_lu.cpp:73-79). -/
def solveLu [Zero α] [Sub α] [Mul α] [Div α] [DecidableEq α] (L U : Dense α) (b : List α) : Res (List α) := do
  let y ← forwardElim L b
  backSolve U y

/-- The elements of a view. -/
def viewElems (v : View) (m : List α) : Res (List α) := (iota v.size.toNat).mapM (fun i => v.get m i)

/-- One pass of the loop over `j` of `qr_decomp` (examples/dense/dense_qr.cpp:47-56); the state is `(Q.data, R)`. -/
def qrProj [Field α] (A Q : Dense α) (i j : Int) (s : List α × Dense α) : Res (List α × Dense α) := do
  let av ← A.getColView i
  let qi ← Q.getColView i
  let qj ← Q.getColView j
  let a ← viewElems av A.data
  let q ← viewElems qj s.1
  let ae ← Vec.inner a q
  let R ← s.2.put j i ae
  let m ← View.combine 1 qi (-ae) qj 0 qi s.1
  .ok (m, R)

/-- One pass of the loop over `i` of `qr_decomp` (examples/dense/dense_qr.cpp:42-60). -/
def qrStep [Field α] [DecidableEq α] (sqrt : α → α) (A Q : Dense α) (i : Int) (s : List α × Dense α) :
    Res (List α × Dense α) := do
  let av ← A.getColView i
  let qi ← Q.getColView i
  let s ← forUp 0 i s (fun j s => qrProj A Q i j s)
  let q ← viewElems qi s.1
  let nrm ← Vec.l2Norm sqrt q
  let m ← qi.divScalar nrm s.1
  let a ← viewElems av A.data
  let q ← viewElems qi m
  let d ← Vec.inner a q
  let R ← s.2.put i i d
  .ok (m, R)

/-- `qr_decomp(A)` (examples/dense/dense_qr.cpp:33-63); `std::sqrt` is a parameter. -/
def qrDecomp [Field α] [DecidableEq α] (sqrt : α → α) (A : Dense α) : Res (Dense α × Dense α) := do
  let R ← Dense.zeros A.cols A.cols
  let s ← forUp 0 A.cols (A.data, R) (fun i s => qrStep sqrt A A i s)
  .ok (⟨A.rows, A.cols, s.1⟩, s.2)

/-- `solve_qr(Q, R, b)` (examples/dense/dense_qr.cpp:24-30). -/
def solveQr [Field α] [DecidableEq α] (Q R : Dense α) (b : List α) : Res (List α) := do
  let y ← Q.multATVec b
  backSolve R y

end Example
end Linalg
