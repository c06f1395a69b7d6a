import Verif.Model.Solvers

/-!
# The solver objects and the one-call functions (include/solvers.hpp, src/solvers.cpp)

The preconditioner and the operator are stored as pointers; the model stores the operators.  `Randomize` fills the start vector; the
model takes its entries as an argument.
-/

namespace Linalg
open Cpp

variable {α : Type}

/-- The checks of `Solver::Solver` (src/solvers.cpp:13-24). -/
def Solver.check (A : Op α) (maxIter : Int) : Res Unit := do
  cassert (maxIter ≥ 0)
  cassert (A.rows = A.cols)

/-- `Vector<double>(A_->Rows())` (include/vector.hpp:118-124): zeros. -/
def Solver.work [Zero α] (A : Op α) : Res (List α) := mkVec A.rows 0

namespace Minres

/-- `MINRESSolver(A, max_iter, rel_tol, abs_tol, verbose, Dot)` (src/solvers.cpp:244-252). -/
def new [Zero α] (A : Op α) (maxIter : Int) (relTol absTol : α) (sqrt : α → α) (dot : List α → List α → Res α) :
    Res (Minres α × MinresState α) := do
  Solver.check A maxIter
  let w0 ← Solver.work A
  let w1 ← Solver.work A
  let v0 ← Solver.work A
  let v1 ← Solver.work A
  let q ← Solver.work A
  cassert (A.rows = A.cols)
  .ok (⟨A, maxIter, relTol, absTol, sqrt, dot⟩, ⟨[], w0, w1, v0, v1, q, 0, 0, 0, 0, 0, 0, 0⟩)

/-- `SetOperator` (src/solvers.cpp:64-70). -/
def setOperator (S : Minres α) (A : Op α) : Res (Minres α) := do
  cassert (A.rows = S.A.rows)
  cassert (A.cols = S.A.cols)
  .ok { S with A := A }

end Minres

namespace Pminres

/-- `PMINRESSolver(A, M, ..)` (src/solvers.cpp:382-396). -/
def new [Zero α] (A M : Op α) (maxIter : Int) (relTol absTol : α) (sqrt : α → α) (dot : List α → List α → Res α) :
    Res (Minres α × PminresState α) := do
  Solver.check A maxIter
  let w0 ← Solver.work A
  let w1 ← Solver.work A
  let v0 ← Solver.work A
  let v1 ← Solver.work A
  let u1 ← Solver.work A
  let q ← Solver.work A
  cassert (A.rows = A.cols)
  cassert (A.rows = M.cols)
  cassert (M.rows = M.cols)
  .ok (⟨A, maxIter, relTol, absTol, sqrt, dot⟩, ⟨[], w0, w1, v0, v1, u1, q, 0, 0, 0, 0, 0, 0, 0⟩)

end Pminres

/-- `SetOperator` of a PCG solver (src/solvers.cpp:64-70). -/
def Pcg.setOperator (S : Pcg α) (A : Op α) : Res (Pcg α) := do
  cassert (A.rows = S.A.rows)
  cassert (A.cols = S.A.cols)
  .ok { S with A := A }

/-- The work vectors of a new PCG solver (src/solvers.cpp:95, 107). -/
def Pcg.newWork [Zero α] (A : Op α) : Res (PcgState α) := do
  let Ap ← Solver.work A
  let r ← Solver.work A
  let p ← Solver.work A
  let z ← Solver.work A
  .ok ⟨[], r, p, z, Ap, 0⟩

section
variable [Field α] [LinearOrder α]

/-- `CG(A, b, x, ..)` and `PCG(A, M, b, x, ..)` (src/solvers.cpp:83-89, 235-241): the new `x`. -/
def pcgSolve (A : Op α) (M : Option (Op α)) (b x : List α) (maxIter : Int) (relTol absTol : α) : Res (List α) := do
  let S ← Pcg.new A M maxIter relTol absTol Vec.inner
  let w ← Pcg.newWork A
  let t ← S.mult b x w
  .ok t.2.x

/-- `MINRES(A, b, x, ..)` (src/solvers.cpp:374-380). -/
def minresSolve (sqrt : α → α) (A : Op α) (b x : List α) (maxIter : Int) (relTol absTol : α) : Res (List α) := do
  let S ← Minres.new A maxIter relTol absTol sqrt Vec.inner
  let t ← S.1.mult b x S.2
  .ok t.2.x

/-- `PMINRES(A, M, b, x, ..)` (src/solvers.cpp:528-534). -/
def pminresSolve (sqrt : α → α) (A M : Op α) (b x : List α) (maxIter : Int) (relTol absTol : α) : Res (List α) := do
  let S ← Pminres.new A M maxIter relTol absTol sqrt Vec.inner
  let t ← Pminres.mult S.1 M b x S.2
  .ok t.2.x

/-- `Vector<double> x(A.Rows()); Randomize(x);` (src/solvers.cpp:75-76): any vector of that length. -/
def Solver.randomStart (A : Op α) (rand : Int → α) : Res (List α) := do
  let x ← mkVec A.rows (0 : α)
  forUp 0 A.rows x (fun i x => vwr x i (rand i))

/-- `CG(A, b, ..)`, `PCG(A, M, b, ..)` with a random start (src/solvers.cpp:72-81, 224-233). -/
def pcgRandom (A : Op α) (M : Option (Op α)) (b : List α) (rand : Int → α) (maxIter : Int) (relTol absTol : α) : Res (List α) := do
  let x ← Solver.randomStart A rand
  pcgSolve A M b x maxIter relTol absTol

/-- `MINRES(A, b, ..)` with a random start (src/solvers.cpp:363-372). -/
def minresRandom (sqrt : α → α) (A : Op α) (b : List α) (rand : Int → α) (maxIter : Int) (relTol absTol : α) : Res (List α) := do
  let x ← Solver.randomStart A rand
  minresSolve sqrt A b x maxIter relTol absTol

/-- `PMINRES(A, M, b, ..)` with a random start (src/solvers.cpp:517-526). -/
def pminresRandom (sqrt : α → α) (A M : Op α) (b : List α) (rand : Int → α) (maxIter : Int) (relTol absTol : α) :
    Res (List α) := do
  let x ← Solver.randomStart A rand
  pminresSolve sqrt A M b x maxIter relTol absTol

end
end Linalg
