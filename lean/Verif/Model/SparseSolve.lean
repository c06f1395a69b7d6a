import Verif.Model.Sparse
import Verif.Model.Eigen

/-!
# The direct sparse solver (modules/sparsesolver)

UMFPACK is a parameter: what is modelled is how it is called.  It takes the three arrays of a matrix stored by columns; the code passes
the arrays of a matrix stored by rows.  `control_` and `info_` are not modelled, nor what is printed.

A solver owns a factorisation through the pointer `numeric_`.  The factorisations are in a list of their own, so that sharing one or
releasing it twice can be seen; a pointer that no constructor has set is `indeterminate`, and reading it is undefined.
-/

namespace Linalg
open Cpp

variable {α S N : Type}

/-- What the UMFPACK routines compute; `S` and `N` are what `symbolic` and `numeric_` point to. -/
structure Umfpack (α S N : Type) where
  /-- `umfpack_di_symbolic`: rows, columns, `Ap`, `Ai`, `Ax`; the status and `Symbolic` -/
  symbolic : Int → Int → List Int → List Int → List α → Int × S
  /-- `umfpack_di_numeric`: `Ap`, `Ai`, `Ax`, `Symbolic`; the status and `Numeric` -/
  numeric : List Int → List Int → List α → S → Int × N
  /-- `umfpack_di_solve`: whether the system is that of the transpose (`UMFPACK_At`), `Ap`, `Ai`, `Ax`, `B`, `Numeric`; `X` and the status -/
  solve : Bool → List Int → List Int → List α → List α → N → List α × Int

/-- The pointer `numeric_`. -/
inductive NumPtr
  | null
  | to (k : Nat)
  | indeterminate
  deriving DecidableEq

/-- The members of `SparseSolver` (modules/sparsesolver/include/sparsesolve.hpp:35-39) and of its base (include/operator.hpp:102-103). -/
structure SparseSolver (α : Type) where
  rows : Int
  cols : Int
  A : Csr α
  numeric : NumPtr

namespace SparseSolver

/-- UMFPACK reads the arrays up to the length they announce. -/
def arrays (A : Csr α) : Res Unit := do
  need A.indptr.length (A.cols + 1)
  let nz ← rd A.indptr A.cols
  need A.indices.length nz
  need A.data.length nz

/-- `Init()` (modules/sparsesolver/src/sparsesolve.cpp:51-76): the new factorisation. -/
def init (U : Umfpack α S N) (A : Csr α) : Res N := do
  cassert (A.nnz ≠ 0)
  arrays A
  let s := U.symbolic A.rows A.cols A.indptr A.indices A.data
  cassert (s.1 = 0)
  let m := U.numeric A.indptr A.indices A.data s.2
  cassert (m.1 = 0)
  .ok m.2

/-- `SparseSolver()` (modules/sparsesolver/include/sparsesolve.hpp:12). -/
def empty : SparseSolver α := ⟨0, 0, Csr.empty, .null⟩

/-- The factorisations that have been made, in order; `none` after it is released. -/
abbrev Factors (N : Type) := List (Option N)

/-- `SparseSolver(SparseMatrix<double> A)` (modules/sparsesolver/src/sparsesolve.cpp:5-18). -/
def new (U : Umfpack α S N) (srt : Csr.Sorter) (F : Factors N) (A : Csr α) : Res (Factors N × SparseSolver α) := do
  cassert (A.rows = A.cols)
  if A.nnz > 0 then
    let B ← A.sortIndices srt
    let f ← init U B
    .ok (F ++ [some f], ⟨A.rows, A.cols, B, .to F.length⟩)
  else .ok (F, ⟨A.rows, A.cols, A, .null⟩)

/-- `SparseSolver(const SparseSolver& other)` (modules/sparsesolver/src/sparsesolve.cpp:20-27): `numeric_` has no initialiser. -/
def copy (U : Umfpack α S N) (F : Factors N) (s : SparseSolver α) : Res (Factors N × SparseSolver α) :=
  if s.A.nnz > 0 then do
    let f ← init U s.A
    .ok (F ++ [some f], { s with numeric := .to F.length })
  else .ok (F, { s with numeric := .indeterminate })

/-- `SparseSolver(SparseSolver&& other)` (modules/sparsesolver/src/sparsesolve.cpp:29-32): the new solver and what the old one becomes;
`numeric_` has no initialiser here either. -/
def move (s : SparseSolver α) : SparseSolver α × SparseSolver α := (s, ⟨0, 0, Csr.empty, .indeterminate⟩)

/-- `~SparseSolver()` (modules/sparsesolver/src/sparsesolve.cpp:78-85). -/
def destroy (F : Factors N) (s : SparseSolver α) : Res (Factors N) :=
  match s.numeric with
  | .null => .ok F
  | .to k =>
    match F[k]? with
    | some (some _) => .ok (F.set k none)
    | _ => .error .undefinedBehaviour
  | .indeterminate => .error .undefinedBehaviour

/-- The factorisation a solver uses. -/
def factor (F : Factors N) (k : Nat) : Res N :=
  match F[k]? with
  | some (some f) => .ok f
  | _ => .error .undefinedBehaviour

/-- The call of `umfpack_di_solve` (modules/sparsesolver/src/sparsesolve.cpp:106-111, 133-138): it reads `n` elements of `in`, writes `n`
of `out`. -/
def callSolve (U : Umfpack α S N) (At : Bool) (A : Csr α) (input output : List α) (f : N) : Res (List α) := do
  arrays A
  need input.length A.rows
  need output.length A.rows
  let r := U.solve At A.indptr A.indices A.data (input.take A.rows.toNat) f
  cassert (r.2 = 0)
  .ok (overwrite r.1 output)

/-- `Mult(input, output)` (modules/sparsesolver/src/sparsesolve.cpp:87-112). -/
def mult [Zero α] (U : Umfpack α S N) (F : Factors N) (s : SparseSolver α) (input output : List α) : Res (List α) := do
  cassert ((input.length : Int) = s.A.cols)
  cassert ((output.length : Int) = s.A.rows)
  match s.numeric with
  | .null => .ok (output.map (fun _ => 0))
  | .indeterminate => .error .undefinedBehaviour
  | .to k =>
    let f ← factor F k
    callSolve U true s.A input output f

/-- `MultAT(input, output)` (modules/sparsesolver/src/sparsesolve.cpp:114-139). -/
def multAT [Zero α] (U : Umfpack α S N) (F : Factors N) (s : SparseSolver α) (input output : List α) : Res (List α) := do
  cassert ((input.length : Int) = s.A.rows)
  cassert ((output.length : Int) = s.A.cols)
  match s.numeric with
  | .null => .ok (output.map (fun _ => 0))
  | .indeterminate => .error .undefinedBehaviour
  | .to k =>
    let f ← factor F k
    callSolve U false s.A input output f

end SparseSolver

/-! ## Programs -/

/-- The factorisations and the solvers a program has made, in order; `none` after destruction. -/
structure SolverStore (α N : Type) where
  factors : SparseSolver.Factors N
  objs : List (Option (SparseSolver α))

/-- What a program can do with its solvers; they are named by the order of their construction. -/
inductive SolverStmt (α : Type)
  /-- `SparseSolver(A)` -/
  | make (A : Csr α)
  /-- `SparseSolver(s)` -/
  | copy (i : Nat)
  /-- `SparseSolver(std::move(s))` -/
  | move (i : Nat)
  /-- `s = t`: `t` is copied into the parameter of `operator=` -/
  | assign (i j : Nat)
  /-- `s = std::move(t)`: `t` is moved into the parameter of `operator=` -/
  | assignMove (i j : Nat)
  /-- `swap(s, t)` -/
  | swap (i j : Nat)
  /-- the end of the life of `s` -/
  | destroy (i : Nat)

namespace SolverStore

/-- The solver with a name; there must be one. -/
def obj (w : SolverStore α N) (i : Nat) : Res (SparseSolver α) :=
  match w.objs[i]? with
  | some (some s) => .ok s
  | _ => .error .undefinedBehaviour

/-- One statement of a program; `operator=` swaps with its parameter, which is then destroyed
(modules/sparsesolver/src/sparsesolve.cpp:34-49). -/
def step (U : Umfpack α S N) (srt : Csr.Sorter) (w : SolverStore α N) : SolverStmt α → Res (SolverStore α N)
  | .make A => do
    let (F, s) ← SparseSolver.new U srt w.factors A
    .ok ⟨F, w.objs ++ [some s]⟩
  | .copy i => do
    let s ← w.obj i
    let (F, t) ← SparseSolver.copy U w.factors s
    .ok ⟨F, w.objs ++ [some t]⟩
  | .move i => do
    let s ← w.obj i
    let (t, s) := SparseSolver.move s
    .ok ⟨w.factors, w.objs.set i (some s) ++ [some t]⟩
  | .assign i j => do
    let s ← w.obj i
    let t ← w.obj j
    let (F, p) ← SparseSolver.copy U w.factors t
    let F ← SparseSolver.destroy F s
    .ok ⟨F, w.objs.set i (some p)⟩
  | .assignMove i j => do
    let t ← w.obj j
    let (p, t) := SparseSolver.move t
    let objs := w.objs.set j (some t)
    let s ← SolverStore.obj ⟨w.factors, objs⟩ i
    let F ← SparseSolver.destroy w.factors s
    .ok ⟨F, objs.set i (some p)⟩
  | .swap i j => do
    let s ← w.obj i
    let t ← w.obj j
    .ok ⟨w.factors, (w.objs.set j (some s)).set i (some t)⟩
  | .destroy i => do
    let s ← w.obj i
    let F ← SparseSolver.destroy w.factors s
    .ok ⟨F, w.objs.set i none⟩

/-- A program. -/
def run (U : Umfpack α S N) (srt : Csr.Sorter) (ops : List (SolverStmt α)) (w : SolverStore α N) : Res (SolverStore α N) :=
  ops.foldlM (step U srt) w

/-- `s.Mult(b, x)` for the solver with a name. -/
def mult [Zero α] (U : Umfpack α S N) (w : SolverStore α N) (i : Nat) (input output : List α) : Res (List α) := do
  let s ← w.obj i
  s.mult U w.factors input output

end SolverStore
end Linalg
