import Verif.Model.Dense
import Mathlib.Order.Defs.LinearOrder

/-!
# The dense eigensolver (include/eigensolver.hpp, src/eigensolver.cpp)

LAPACK is not part of this code base: its routines are a parameter, `Lapack`.  What is modelled is how the solver calls them:
the workspace, which arrays are passed, how many eigenvectors are asked for.  A call with an array shorter than the routine
requires is `outOfBounds`; a call with an argument LAPACK rejects (`XERBLA` stops the program) is `threw`.

`work_`, `iwork_` and `ifail_` are scratch space of LAPACK whose contents this code never reads: only their lengths are
modelled.  `info_` is written by LAPACK and never read.  Printing is left out.
-/

namespace Linalg
open Cpp

variable {α : Type}

/-- What the LAPACK routines compute, on arrays of the documented length. -/
structure Lapack (α : Type) where
  /-- workspace query of `dsytrd_` for a matrix of this size, converted to `int` -/
  sytrdWork : Int → Int
  /-- workspace query of `dormtr_` -/
  ormtrWork : Int → Int
  /-- `dsytrd_`: size, matrix; the overwritten matrix, diagonal, off-diagonal and `tau` -/
  sytrd : Nat → List α → List α × List α × List α × List α
  /-- `dsterf_`: size, diagonal, off-diagonal; the eigenvalues -/
  sterf : Nat → List α → List α → List α
  /-- `dstein_`: size, number of vectors, diagonal, off-diagonal, eigenvalues, `iblock`, `isplit`; the vectors -/
  stein : Nat → Nat → List α → List α → List α → List Int → List Int → List α
  /-- `dormtr_`: size, number of columns, matrix and `tau` from `dsytrd_`, columns; the columns multiplied by `Q` -/
  ormtr : Nat → Nat → List α → List α → List α → List α

/-- A LAPACK routine uses the first `k` elements of an array of `len` elements. -/
def need (len k : Int) : Res Unit := if k ≤ len then .ok () else .error .outOfBounds

/-- A LAPACK routine writes the first elements of an array. -/
def overwrite (p v : List α) : List α := p ++ v.drop p.length

/-- The members of `EigenSolver` (include/eigensolver.hpp:85-106). -/
structure Eigen (α : Type) where
  allocSize : Int
  lwork : Int
  A : List α
  work : Int
  iwork : Int
  d : List α
  e : List α
  tau : List α
  iblock : List Int
  isplit : List Int
  ifail : Int
  deriving DecidableEq

namespace Eigen

/-- `EigenSolver()` (src/eigensolver.cpp:32-37). -/
def new : Eigen α := ⟨-1, -1, [], 0, 0, [], [], [], [], [], 0⟩

/-- `AllocateWorkspace(int size)` (src/eigensolver.cpp:136-169). -/
def allocate [Zero α] (L : Lapack α) (S : Eigen α) (size : Int) : Eigen α :=
  let lwork := max (5 * size) (L.sytrdWork size)
  let lwork := max lwork (L.ormtrWork size)
  { S with
    A := resize S.A (size * size).toNat 0
    allocSize := size
    lwork := lwork
    work := lwork
    iwork := size
    d := resize S.d size.toNat 0
    e := resize S.e size.toNat 0
    tau := resize S.tau size.toNat 0
    iblock := resize S.iblock size.toNat 1
    isplit := resize S.isplit size.toNat 0 }

/-- The call of `dsytrd_` (src/eigensolver.cpp:85-86): `a` has `n * n` elements, `d` `n`, `e` and `tau` `n - 1`, `work` `lwork`,
which must be at least 1. -/
def callSytrd (L : Lapack α) (n : Int) (S : Eigen α) : Res (Eigen α) := do
  cverify (1 ≤ S.lwork)
  need S.A.length (n * n)
  need S.d.length n
  need S.e.length (n - 1)
  need S.tau.length (n - 1)
  need S.work S.lwork
  let r := L.sytrd n.toNat (S.A.take (n * n).toNat)
  .ok { S with A := overwrite r.1 S.A, d := overwrite r.2.1 S.d, e := overwrite r.2.2.1 S.e, tau := overwrite r.2.2.2 S.tau }

/-- The call of `dsterf_` (src/eigensolver.cpp:94) on the eigenvalue array and the copy of `e_`. -/
def callSterf (L : Lapack α) (n : Int) (evals e : List α) : Res (List α) := do
  need evals.length n
  need e.length (n - 1)
  .ok (overwrite (L.sterf n.toNat (evals.take n.toNat) (e.take (n - 1).toNat)) evals)

/-- The loop `while (m < max_evect && evals[m] <= tol) ++m` (src/eigensolver.cpp:106-109).  The first argument bounds the
number of iterations; `max_evect` iterations always suffice. -/
def count [LE α] [DecidableLE α] (evals : List α) (tol : α) (maxEvect : Int) : Nat → Int → Res Int
  | 0, m => .ok m
  | k + 1, m =>
    if m < maxEvect then do
      let x ← rd evals m
      if x ≤ tol then count evals tol maxEvect k (m + 1) else .ok m
    else .ok m

/-- The call of `dstein_` (src/eigensolver.cpp:118-122); `m` must not exceed `n`. -/
def callStein (L : Lapack α) (n m : Int) (S : Eigen α) (evals : List α) (evects : Dense α) : Res (Dense α) := do
  cverify (0 ≤ m ∧ m ≤ n)
  need S.d.length n
  need S.e.length (n - 1)
  need evals.length n
  need S.iblock.length n
  need S.isplit.length n
  need evects.data.length (n * m)
  need S.work (5 * n)
  need S.iwork n
  need S.ifail m
  let z := L.stein n.toNat m.toNat (S.d.take n.toNat) (S.e.take (n - 1).toNat) (evals.take n.toNat) (S.iblock.take n.toNat)
    (S.isplit.take n.toNat)
  .ok { evects with data := overwrite z evects.data }

/-- The call of `dormtr_` (src/eigensolver.cpp:125-128); `lwork` must be at least 1 and `m`. -/
def callOrmtr (L : Lapack α) (n m : Int) (S : Eigen α) (evects : Dense α) : Res (Dense α) := do
  cverify (1 ≤ S.lwork ∧ m ≤ S.lwork)
  need S.A.length (n * n)
  need S.tau.length (n - 1)
  need evects.data.length (n * m)
  need S.work S.lwork
  let z := L.ormtr n.toNat m.toNat (S.A.take (n * n).toNat) (S.tau.take (n - 1).toNat) (evects.data.take (n * m).toNat)
  .ok { evects with data := overwrite z evects.data }

/-- The part of `Solve` after the eigenvalues are known (src/eigensolver.cpp:96-131). -/
def vectors [Zero α] [Mul α] [LE α] [DecidableLE α] (L : Lapack α) (S : Eigen α) (n : Int) (relTol : α) (maxEvect : Int)
    (evals : List α) (evects : Dense α) : Res (Eigen α × List α × Dense α) := do
  let last ← rd evals ((evals.length : Int) - 1)
  let tol := last * relTol
  let maxEvect := if maxEvect < 0 then n else maxEvect
  let m ← count evals tol maxEvect maxEvect.toNat 1
  let isplit ← wr S.isplit 0 n
  let S := { S with ifail := m, isplit := isplit }
  let evects ← evects.setSize n m
  let evects ← callStein L n m S evals evects
  let evects ← callOrmtr L n m S evects
  .ok (S, resize evals n.toNat 0, evects)

/-- `Solve(const DenseMatrix& mat, double rel_tol, int max_evect, EigenPair& eigen_pair)` (src/eigensolver.cpp:58-134). -/
def solve [Zero α] [Mul α] [LE α] [DecidableLE α] (L : Lapack α) (S : Eigen α) (mat : Dense α) (relTol : α) (maxEvect : Int)
    (evals : List α) (evects : Dense α) : Res (Eigen α × List α × Dense α) := do
  let n := mat.rows
  if n < 1 then
    let evects ← evects.setSize 0 0
    .ok (S, resize evals n.toNat 0, evects)
  else
    let S := if S.allocSize < n then S.allocate L n else S
    let evals := resize evals n.toNat 0
    let S := { S with A := mat.data }
    let S ← callSytrd L n S
    let evals ← forUp 0 n evals (fun i evals => do
      let x ← rd S.d i
      wr evals i x)
    let evals ← callSterf L n evals S.e
    vectors L S n relTol maxEvect evals evects

/-- `Solve(const DenseMatrix& mat, double rel_tol, int max_evect)` (src/eigensolver.cpp:44-50). -/
def solveNew [Zero α] [Mul α] [LE α] [DecidableLE α] (L : Lapack α) (S : Eigen α) (mat : Dense α) (relTol : α)
    (maxEvect : Int) : Res (Eigen α × List α × Dense α) :=
  S.solve L mat relTol maxEvect [] Dense.empty

end Eigen
end Linalg
