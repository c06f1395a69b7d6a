import Verif.Model.Lobpcg
import Verif.Model.ParTranspose

/-!
# The test program of the parallel module (modules/parlinalgcpp/tests/test_parlinalg.cpp)

All processes together, a list having one element per process.  Reading the two files and printing are left out.  The preconditioners are
parameters: any operators on all processes, made from the matrix.
-/

namespace Linalg
open Cpp

variable {α : Type}

namespace Par

/-- `ParSplit` and then `AddDiag(val)` on every process (modules/parlinalgcpp/tests/test_parlinalg.cpp:39-40). -/
def splitShift [Zero α] [Add α] (srt : Csr.Sorter) (reorder : Csr α → Csr α) (numProcs : Nat) (A : Csr α) (part : List Int) (val : α) :
    Res (List (ParMat α)) := do
  let Ms ← parSplit srt reorder numProcs A part
  Ms.mapM (fun M => M.addDiagVal val)

/-- The assertions about the eigenvalues (modules/parlinalgcpp/tests/test_parlinalg.cpp:150-151), on one process. -/
def testEvals [LinearOrder α] [AddGroup α] (tol first second : α) (evals : List α) : Res Unit := do
  let a ← rd evals 0
  cassert (|a - first| < tol)
  let b ← rd evals 1
  cassert (|b - second| < tol)

/-- The loop over the preconditioners (modules/parlinalgcpp/tests/test_parlinalg.cpp:132-152).  `rand k` are the vectors `Randomize` makes in turn
`k`. -/
def testLoop [LinearOrder α] [AddGroup α] (hypre : Bool → List (List (List α)) → Ask α)
    (rand : Nat → List (List (List α)) → List (List (List α))) (op : ParOp α) (tol first second : α) :
    Nat → List (ParOp α) → List (List (List α)) → Res (List (List (List α)))
  | _, [], x => .ok x
  | k, P :: Ps, x => do
    let r ← lobpcg hypre op (rand k x) (some P)
    let _ ← r.1.mapM (testEvals tol first second)
    testLoop hypre rand op tol first second (k + 1) Ps r.2

/-- `main` (modules/parlinalgcpp/tests/test_parlinalg.cpp:12-160): two processes, the matrix split and made nonsingular, two random vectors,
and the eigenvalues found with each of the preconditioners. -/
def test [One α] [LinearOrder α] [AddGroup α] (srt : Csr.Sorter) (reorder : Csr α → Csr α) (mv : Matvec α)
    (hypre : Bool → List (List (List α)) → Ask α) (rand : Nat → List (List (List α)) → List (List (List α)))
    (ops : List (ParMat α) → List (ParOp α)) (tol first second : α) (numProcs : Nat) (A : Csr α) (part : List Int) :
    Res (List (List (List α))) := do
  cassert (numProcs = 2)
  let Ms ← splitShift srt reorder numProcs A part 1
  let x ← Ms.mapM (fun M => do
    let v ← mkVec M.rows (0 : α)
    mkVec 2 v)
  testLoop hypre rand (opOf mv Ms) tol first second 0 (ops Ms) x

/-- `RAP(A, P)` (modules/parlinalgcpp/src/parutilities.cpp:205-208). -/
def rapSame [Zero α] [Add α] [Mul α] (srt : Csr.Sorter) (search : List Int → Int → Int) (reorder : Csr α → Csr α)
    (extract : List (ParMat α) → ParMat α → Csr α) (pkgs : List CommPkg) (As Ps : List (ParMat α)) : Res (List (ParMat α)) :=
  rap srt search reorder extract pkgs Ps As Ps

/-- `ParSub(alpha, A, beta, B, marker)` (modules/parlinalgcpp/src/parutilities.cpp:316-320). -/
def parSubMarker [Zero α] [Add α] [Mul α] [Neg α] (srt : Csr.Sorter) (reorder : Csr α → Csr α) (alpha : α) (A : ParMat α) (beta : α)
    (B : ParMat α) (marker : List Int) : Res (ParMat α × List Int) :=
  parAddMarker srt reorder alpha A (-beta) B marker

end Par
end Linalg
