import Verif.Spec.Handles

/-!
# The hypre solvers (modules/parlinalgcpp/src/parsolvers.cpp, modules/parlinalgcpp/src/parsmoother.cpp)

What these classes add to the matrix they hold is a handle to a solver of the library, function pointers that create, destroy, set up and
apply it, and for a smoother a vector that wraps its buffer.  The base `ParOperator` and the member `A_` are values here (C98 shows that
they behave as such).  The numbers the library computes are not modelled: a solver records which settings it was given, whether it was set
up, and its preconditioner.
-/

namespace Linalg
open Cpp

variable {α : Type}

/-- The parts of hypre that make solvers. -/
inductive HLib
  | amg
  | sails
  | pcg
  deriving DecidableEq

/-- A function pointer: `none` for `no_create`, `no_destroy`, `no_setup` and `no_solve` (modules/parlinalgcpp/include/parsolvers.hpp:20-35). -/
inductive HFn
  | none
  | diag
  | lib (l : HLib)
  | indeterminate
  deriving DecidableEq

/-- What a function does with a solver. -/
inductive HRole
  | setup
  | solve
  deriving DecidableEq

/-- `max_iter_`, `tol_`, `verbose_` (modules/parlinalgcpp/include/parsolvers.hpp:127-129). -/
structure SolverSettings (α : Type) where
  maxIter : Nat
  tol : α
  verbose : Bool
  deriving DecidableEq

/-- What an address holds. -/
inductive SCell (α : Type)
  /-- a solver: what made it, the settings it was given if any, whether it is set up; how the preconditioner is applied, how it is set up,
  and its handle -/
  | solver (l : HLib) (cfg : Option (SolverSettings α)) (ready : Bool) (precond : Option ((HRole × HFn) × (HRole × HFn) × CPtr))
  /-- the vector that wraps the buffer of a smoother -/
  | shell
  deriving DecidableEq

/-- The class of an object. -/
inductive SolverKind
  /-- `ParSolver` itself, with the functions it has by default -/
  | base
  | boomer
  | sails
  | cg
  | diag
  | smoother
  deriving DecidableEq

/-- The members of `ParSolver` (modules/parlinalgcpp/include/parsolvers.hpp:127-140), with whether the base has its two vectors, and
`buffer_shell_` of `ParSmoother` (modules/parlinalgcpp/include/parsmoother.hpp:106). -/
structure SolverObj (α : Type) where
  views : Bool
  A : ParMatVal α
  settings : Option (SolverSettings α)
  create : HFn
  destroyFn : HFn
  setupFn : HFn
  solveFn : HFn
  solver : CPtr
  shell : CPtr

namespace SolverObj

/-- `(*create_)(&solver_)`: the solver with the settings of the library. -/
def callCreate (m : Mem (SCell α)) (f : HFn) (p : CPtr) : Res (Mem (SCell α) × CPtr) :=
  match f with
  | .lib l =>
    let (m, k) := m.alloc (.solver l none false none)
    .ok (m, .to k)
  | .indeterminate => .error .undefinedBehaviour
  | _ => .ok (m, p)

/-- `(*destroy_)(solver_)`. -/
def callDestroy (m : Mem (SCell α)) (f : HFn) (p : CPtr) : Res (Mem (SCell α)) :=
  match f with
  | .lib l => do
    let k ← Hypre.deref p
    match ← m.get k with
    | .solver l' _ _ _ => if l = l' then m.free k else .error .undefinedBehaviour
    | _ => .error .undefinedBehaviour
  | .indeterminate => .error .undefinedBehaviour
  | _ => .ok m

/-- `(*setup_)(solver_, A, b_, x_)` (modules/parlinalgcpp/src/parsolvers.cpp:88-94); the library looks at the vectors. -/
def callSetup (m : Mem (SCell α)) (f : HFn) (p : CPtr) (views : Bool) : Res (Mem (SCell α)) :=
  match f with
  | .lib l => do
    if views = false then (.error .undefinedBehaviour : Res Unit) else .ok ()
    let k ← Hypre.deref p
    match ← m.get k with
    | .solver l' cfg _ pc => if l = l' then m.put k (.solver l' cfg true pc) else .error .undefinedBehaviour
    | _ => .error .undefinedBehaviour
  | .indeterminate => .error .undefinedBehaviour
  | _ => .ok m

/-- `(*solve_)(solver_, A, b_, x_)`: the settings it works with. -/
def callSolve (m : Mem (SCell α)) (f : HFn) (p : CPtr) : Res (Option (SolverSettings α)) :=
  match f with
  | .lib l => do
    let k ← Hypre.deref p
    match ← m.get k with
    | .solver l' cfg ready _ => if l = l' ∧ ready then .ok cfg else .error .undefinedBehaviour
    | _ => .error .undefinedBehaviour
  | .indeterminate => .error .undefinedBehaviour
  | _ => .ok none

/-- The calls that hand the settings to the library. -/
def configure (m : Mem (SCell α)) (p : CPtr) (s : SolverSettings α) : Res (Mem (SCell α)) := do
  let k ← Hypre.deref p
  match ← m.get k with
  | .solver l _ ready pc => m.put k (.solver l (some s) ready pc)
  | _ => .error .undefinedBehaviour

/-- The functions of each class (modules/parlinalgcpp/src/parsolvers.cpp:113-115, 172-174, 239-241, 298-300). -/
def fns : SolverKind → HFn × HFn × HFn × HFn
  | .base => (.none, .none, .none, .none)
  | .boomer => (.lib .amg, .lib .amg, .lib .amg, .lib .amg)
  | .sails => (.none, .lib .sails, .lib .sails, .lib .sails)
  | .cg => (.lib .pcg, .lib .pcg, .lib .pcg, .lib .pcg)
  | .diag => (.none, .none, .diag, .diag)
  | .smoother => (.none, .none, .none, .none)

/-- `ParSolver()` (modules/parlinalgcpp/src/parsolvers.cpp:8-14). -/
def void [Zero α] : SolverObj α := ⟨false, .void, some ⟨0, 0, false⟩, .none, .none, .none, .none, .null, .null⟩

/-- What a solver is constructed from. -/
inductive Args (α : Type)
  | none
  /-- a matrix and the settings; those a class does not use are ignored -/
  | all (A : ParMatVal α) (s : SolverSettings α)

/-- The checks of `ParSolver(A, ...)` (modules/parlinalgcpp/src/parsolvers.cpp:16-35): the base reads the starts of the matrix. -/
def check : ParMatVal α → Res Unit
  | .full _ _ _ M => do
    cassert (M.rows = M.cols)
    cassert (M.globalRows = M.globalCols)
  | .void => .error .outOfBounds

/-- Construction (modules/parlinalgcpp/src/parsolvers.cpp:8-35, 111-143, 168-188, 237-250, 296-303,
modules/parlinalgcpp/src/parsmoother.cpp:7-22). -/
def make [Zero α] (kind : SolverKind) (m : Mem (SCell α)) : Args α → Res (Mem (SCell α) × SolverObj α)
  | .none => .ok (m, void)
  | .all A s => do
    let _ ← check A
    let f := fns kind
    let (m, p) ← callCreate m f.1 .null
    let o : SolverObj α := ⟨true, A, some s, f.1, f.2.1, f.2.2.1, f.2.2.2, p, .null⟩
    match kind with
    | .boomer => do
      let m ← configure m p s
      let m ← callSetup m o.setupFn p o.views
      .ok (m, o)
    | .sails => do
      let (m, k) := m.alloc (.solver .sails none false none)
      let m ← configure m (.to k) s
      let m ← callSetup m o.setupFn (.to k) o.views
      .ok (m, { o with solver := .to k })
    | .cg => do
      let m ← configure m p s
      let m ← callSetup m o.setupFn p o.views
      .ok (m, o)
    | .diag => do
      let m ← callSetup m o.setupFn p o.views
      .ok (m, o)
    | .smoother =>
      let (m, k) := m.alloc .shell
      .ok (m, { o with shell := .to k })
    | .base => .ok (m, o)

/-- Whether the copy of a base has vectors (modules/parlinalgcpp/src/paroperator.cpp:37-46). -/
def copyViews : ParMatVal α → Bool
  | .full comm rank _ _ => comm > 0 ∧ rank ≥ 0
  | .void => false

/-- `InitVector(buffer_shell_, row_starts_)` (modules/parlinalgcpp/src/paroperator.cpp:56-67). -/
def initShell (m : Mem (SCell α)) : ParMatVal α → Res (Mem (SCell α) × CPtr)
  | .full _ _ _ _ =>
    let (m, k) := m.alloc .shell
    .ok (m, .to k)
  | .void => .error .assertFail

/-- The copy constructors (modules/parlinalgcpp/src/parsolvers.cpp:42-51, 145-148, 190-193, 263-267, 305-308,
modules/parlinalgcpp/src/parsmoother.cpp:24-31). -/
def copy (r : Csr α → Csr α) (kind : SolverKind) (m : Mem (SCell α)) (o : SolverObj α) : Res (Mem (SCell α) × SolverObj α) := do
  let A ← ParMatVal.copy r o.A
  let (m, p) ← callCreate m o.create .null
  let q : SolverObj α := ⟨copyViews o.A, A, o.settings, o.create, o.destroyFn, o.setupFn, o.solveFn, p, .null⟩
  match kind with
  | .cg => do
    let m ← callSetup m q.setupFn q.solver q.views
    .ok (m, q)
  | .smoother => do
    let (m, k) ← initShell m A
    .ok (m, { q with shell := k })
  | _ => .ok (m, q)

/-- The new object in the move constructors (modules/parlinalgcpp/src/parsolvers.cpp:53-56, 150-153, 195-198, 269-272, 310-313,
modules/parlinalgcpp/src/parsmoother.cpp:33-36): `ParSolver(ParSolver&&)` and `ParSmoother(ParSmoother&&)` leave members unset. -/
def blank [Zero α] (kind : SolverKind) (m : Mem (SCell α)) : Mem (SCell α) × SolverObj α :=
  match kind with
  | .base => (m, ⟨false, .void, none, .indeterminate, .indeterminate, .indeterminate, .indeterminate, .indeterminate, .null⟩)
  | .smoother => (m, { void with shell := .indeterminate })
  | _ => (m, void)

/-- `swap` (modules/parlinalgcpp/src/parsolvers.cpp:65-81, 162-165, 207-210, 281-284, 322-325,
modules/parlinalgcpp/src/parsmoother.cpp:44-56); the members of a smoother other than `buffer_shell_` are values and not modelled. -/
def swap (a b : SolverObj α) : SolverObj α × SolverObj α :=
  let (a, b) := ({ a with views := b.views }, { b with views := a.views })
  let (a, b) := ({ a with settings := b.settings }, { b with settings := a.settings })
  let (a, b) := ({ a with A := b.A }, { b with A := a.A })
  let (a, b) := ({ a with create := b.create }, { b with create := a.create })
  let (a, b) := ({ a with destroyFn := b.destroyFn }, { b with destroyFn := a.destroyFn })
  let (a, b) := ({ a with setupFn := b.setupFn }, { b with setupFn := a.setupFn })
  let (a, b) := ({ a with solveFn := b.solveFn }, { b with solveFn := a.solveFn })
  let (a, b) := ({ a with solver := b.solver }, { b with solver := a.solver })
  ({ a with shell := b.shell }, { b with shell := a.shell })

/-- `DestroyVector(buffer_shell_)` (modules/parlinalgcpp/src/paroperator.cpp:69-76). -/
def destroyShell (m : Mem (SCell α)) : CPtr → Res (Mem (SCell α))
  | .null => .ok m
  | .to k => do
    match ← m.get k with
    | .shell => m.free k
    | _ => .error .undefinedBehaviour
  | _ => .error .undefinedBehaviour

/-- The destructors (modules/parlinalgcpp/src/parsolvers.cpp:37-40, modules/parlinalgcpp/src/parsmoother.cpp:58-61). -/
def destroy (kind : SolverKind) (m : Mem (SCell α)) (o : SolverObj α) : Res (Mem (SCell α)) := do
  let m ← if kind = .smoother then destroyShell m o.shell else .ok m
  callDestroy m o.destroyFn o.solver

/-- `Mult(input, output)` (modules/parlinalgcpp/src/parsolvers.cpp:96-108, modules/parlinalgcpp/src/parsmoother.cpp:63-95): the matrix and
the settings the library works with. -/
def mult (kind : SolverKind) (m : Mem (SCell α)) (o : SolverObj α) : Res (ParMatVal α × Option (SolverSettings α)) :=
  if o.views = false then .error .undefinedBehaviour
  else if kind = .smoother then do
    let k ← Hypre.deref o.shell
    let _ ← m.get k
    .ok (o.A, none)
  else do
    let cfg ← callSolve m o.solveFn o.solver
    .ok (o.A, cfg)

/-- A product, which changes nothing in the solver. -/
def update (kind : SolverKind) (m : Mem (SCell α)) (o : SolverObj α) (_ : Unit) : Res (Mem (SCell α)) := do
  let _ ← mult kind m o
  .ok m

/-- The class. -/
def cls [Zero α] (r : Csr α → Csr α) (kind : SolverKind) : Cls (SCell α) (SolverObj α) (Args α) Unit :=
  ⟨make kind, copy r kind, blank kind, swap, destroy kind, update kind⟩

/-! ## Preconditioners -/

/-- `HYPRE_ParCSRPCGSetPrecond(solver, precond, precond_setup, precond_solver)`: the second argument is what applies the preconditioner. -/
def setPrecond (m : Mem (SCell α)) (p : CPtr) (apply setup : HRole × HFn) (handle : CPtr) : Res (Mem (SCell α)) := do
  let k ← Hypre.deref p
  match ← m.get k with
  | .solver .pcg cfg ready _ => m.put k (.solver .pcg cfg ready (some (apply, setup, handle)))
  | _ => .error .undefinedBehaviour

/-- `ParCG(A, M, max_iter, tol, verbose)` (modules/parlinalgcpp/src/parsolvers.cpp:252-260). -/
def makeCg [Zero α] (m : Mem (SCell α)) (A : ParMatVal α) (M : SolverObj α) (s : SolverSettings α) : Res (Mem (SCell α) × SolverObj α) := do
  let (m, o) ← make .cg m (.all A s)
  let m ← setPrecond m o.solver (.setup, M.setupFn) (.solve, M.solveFn) M.solver
  .ok (m, o)

/-- `EnableDiagScaling()` (modules/parlinalgcpp/src/parsolvers.cpp:286-294). -/
def enableDiag (m : Mem (SCell α)) (o : SolverObj α) : Res (Mem (SCell α)) :=
  setPrecond m o.solver (.solve, .diag) (.setup, .diag) .null

/-- What the library does in each pass to apply the preconditioner: nothing without one, and otherwise which function it calls; the call
looks at the handle. -/
def applyPrecond (m : Mem (SCell α)) (o : SolverObj α) : Res (Option (HRole × HFn × CPtr)) := do
  let k ← Hypre.deref o.solver
  match ← m.get k with
  | .solver .pcg _ _ none => .ok none
  | .solver .pcg _ _ (some (f, _, h)) => do
    match f.1 with
    | .setup => do
      let _ ← callSetup m f.2 h true
      .ok (some (f.1, f.2, h))
    | .solve => do
      let _ ← callSolve m f.2 h
      .ok (some (f.1, f.2, h))
  | _ => .error .undefinedBehaviour

end SolverObj
end Linalg
