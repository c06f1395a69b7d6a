import Verif.Model.ParVec
import Verif.Model.Eigen

/-!
# LOBPCG (modules/parlinalgcpp/src/parsolvers.cpp)

The iteration itself is hypre's.  What is modelled is how it is called: the vectors it starts from, the functions it calls back, and what the caller gets.
Everything is on all processes together, a list having one element per process, as in `Verif.Model.ParVec`.

hypre's program is a tree, `Ask`: what it asks for next may depend on all the answers before.  The vectors hypre allocates hold zeros
(`hypre_SeqVectorInitialize`).  Printing is left out.
-/

namespace Linalg
open Cpp

variable {α : Type}

/-- What hypre can do next, on all processes. -/
inductive Ask (α : Type)
  /-- the end: the eigenvalues (per process) and the vectors (per process, one array for each) -/
  | done (evals : List (List α)) (vecs : List (List (List α)))
  /-- `Matvec(matvec_data, alpha, A, x, beta, y)`: the arrays of `x` and of `y`; goes on with what is in `y` then -/
  | matvec (alpha : α) (x : List (List α)) (beta : α) (y : List (List α)) (k : List (List α) → Ask α)
  /-- `Precond(precond_data, A, b, x)`: the arrays of `b` and of `x`; goes on with what is in `x` then -/
  | precond (b x : List (List α)) (k : List (List α) → Ask α)

/-- An operator on all processes (`ParOperator`, or an `Operator` on each): `Rows()`, `GetRowStarts()` and `Mult(input, output)`, which all of them call
together. -/
structure ParOp (α : Type) where
  rows : List Int
  starts : List (List Int)
  mult : List (List α) → List (List α) → Res (List (List α))

namespace Par

/-- `ParMatrix` as an operator: `Mult(input, output)` (modules/parlinalgcpp/src/parmatrix.cpp:212-227). -/
def opOf (mv : Matvec α) (Ms : List (ParMat α)) : ParOp α where
  rows := Ms.map (fun M => M.diag.rows)
  starts := Ms.map (fun M => M.rowStarts)
  mult := fun xs ys => do
    let _ ← (Ms.zip (xs.zip ys)).mapM (fun p => p.1.multCheck (p.2.1.length : Int) (p.2.2.length : Int))
    .ok (mv Ms xs)

/-- `VectorView<double>(data, n)`: a view of the first elements of an array, which must be there since `Mult` uses all of them. -/
def front (n : Int) (a : List α) : Res (List α) := do
  need (a.length : Int) n
  .ok (a.take n.toNat)

/-- `MyMatvec(matvec_data, alpha, A, x, beta, y)` (modules/parlinalgcpp/src/parsolvers.cpp:344-355). -/
def myMatvec (op : ParOp α) (_alpha : α) (x : List (List α)) (_beta : α) (y : List (List α)) : Res (List (List α)) := do
  let xv ← (op.rows.zip x).mapM (fun p => front p.1 p.2)
  let yv ← (op.rows.zip y).mapM (fun p => front p.1 p.2)
  let r ← op.mult xv yv
  .ok (List.zipWith overwrite r y)

/-- `MySolve(solver, A, b, x)` (modules/parlinalgcpp/src/parsolvers.cpp:327-337). -/
def mySolve (solver op : ParOp α) (b x : List (List α)) : Res (List (List α)) := do
  let bv ← (op.rows.zip b).mapM (fun p => front p.1 p.2)
  let xv ← (op.rows.zip x).mapM (fun p => front p.1 p.2)
  let r ← solver.mult bv xv
  .ok (List.zipWith overwrite r x)

/-- `HYPRE_LOBPCGSolve` with the functions it was given (modules/parlinalgcpp/src/parsolvers.cpp:395-399, 423-431); without a preconditioner it must not ask
for one. -/
def runAsk (op : ParOp α) (precond : Option (ParOp α)) : Ask α → Res (List (List α) × List (List (List α)))
  | .done evals vecs => .ok (evals, vecs)
  | .matvec alpha x beta y k => do
    let r ← myMatvec op alpha x beta y
    runAsk op precond (k r)
  | .precond b x k =>
    match precond with
    | none => .error .undefinedBehaviour
    | some P => do
      let r ← mySolve P op b x
      runAsk op precond (k r)

/-- The copy of a start vector into an array of hypre (modules/parlinalgcpp/src/parsolvers.cpp:406-410). -/
def copyIn [Zero α] (n : Int) (x : List α) : Res (List α) := do
  let a ← mkVec n (0 : α)
  need (a.length : Int) (x.length : Int)
  .ok (overwrite x a)

/-- The number of elements a process has according to `row_starts`. -/
def localSize (starts : List Int) : Res Int := do
  let b ← rd starts 1
  let a ← rd starts 0
  .ok (b - a)

/-- `LOBPCG(pmat, x, precond, verbose)` (modules/parlinalgcpp/src/parsolvers.cpp:367-444), where `hypre` is the program of `HYPRE_LOBPCGSolve`, given whether
there is a preconditioner and the start vectors: the eigenvalues and what is in `x` then, on every process. -/
def lobpcg [Zero α] (hypre : Bool → List (List (List α)) → Ask α) (op : ParOp α) (x : List (List (List α))) (precond : Option (ParOp α)) :
    Res (List (List α) × List (List (List α))) := do
  let sizes ← op.starts.mapM localSize
  let vecs ← (sizes.zip x).mapM (fun p => p.2.mapM (copyIn p.1))
  let r ← runAsk op precond (hypre precond.isSome vecs)
  let evals ← (x.zip r.1).mapM (fun p => do
    let e ← mkVec (p.1.length : Int) (0 : α)
    need (e.length : Int) (p.2.length : Int)
    .ok (overwrite p.2 e))
  let x ← (x.zip r.2).mapM (fun p => (p.1.zip p.2).mapM (fun q => front (q.1.length : Int) q.2))
  .ok (evals, x)

/-- `LOBPCG(pmat, num_evects, precond, verbose)` (modules/parlinalgcpp/src/parsolvers.cpp:447-457): `rand` are the vectors `Randomize` makes of the given
ones. -/
def lobpcgNew [Zero α] (hypre : Bool → List (List (List α)) → Ask α) (rand : List (List (List α)) → List (List (List α))) (op : ParOp α) (numEvects : Int)
    (precond : Option (ParOp α)) : Res (List (List α)) := do
  let x ← op.rows.mapM (fun n => do
    let v ← mkVec n (0 : α)
    mkVec numEvects v)
  let r ← lobpcg hypre op (rand x) precond
  .ok r.1

end Par
end Linalg
