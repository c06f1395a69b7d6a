import Verif.Model.Handles
import Verif.Model.Plain
import Verif.Model.SolverApi

/-!
# Solver objects and the operators they point to (include/solvers.hpp, src/solvers.cpp)

A solver keeps `A_` and `M_` as pointers to operators it does not own.  The operators of a program live in a memory; they can be made,
changed in place and destroyed, and an address is never used again.  `M_` has no initialiser, so `PCGSolver() = default` and the move
constructors start from an indeterminate pointer.
-/

namespace Linalg
open Cpp

variable {α : Type}

/-- The operators of a program. -/
abbrev OpMem (α : Type) := Mem (Op α)

/-- Following a pointer to an operator. -/
def OpMem.deref (m : OpMem α) : CPtr → Res (Op α)
  | .to k => m.get k
  | _ => .error .undefinedBehaviour

/-- The members of `Operator` and `Solver` (include/operator.hpp:102-103, include/solvers.hpp:79-88). -/
structure SolverBase (α : Type) where
  rows : Int
  cols : Int
  A : CPtr
  maxIter : Int
  verbose : Bool
  relTol : α
  absTol : α
  dot : Option (List α → List α → Res α)
  numIter : Int

/-- The arguments of the constructors; `M` is left out by the one without a preconditioner. -/
structure SolverArgs (α : Type) where
  A : Nat
  M : Option Nat
  maxIter : Int
  relTol : α
  absTol : α
  verbose : Bool
  dot : List α → List α → Res α

/-- What can be done to a solver. -/
inductive SolverChange (α : Type)
  | maxIter (n : Int)
  | relTol (t : α)
  | absTol (t : α)
  | verbose (v : Bool)
  | operator (k : Nat)
  | precond (k : Nat)
  /-- `Mult(b, x)` -/
  | mult (b x : List α)

namespace SolverBase

/-- `Solver()` (src/solvers.cpp:6-11). -/
def blank [Zero α] : SolverBase α := ⟨0, 0, .null, 0, false, 0, 0, none, 0⟩

/-- `Solver(A, max_iter, rel_tol, abs_tol, verbose, Dot)` (src/solvers.cpp:13-24). -/
def make (m : OpMem α) (a : SolverArgs α) : Res (SolverBase α) := do
  let A ← m.get a.A
  let s ← copySizes A.rows A.cols
  cassert (a.maxIter ≥ 0)
  cassert (A.rows = A.cols)
  .ok ⟨s.1, s.2, .to a.A, a.maxIter, a.verbose, a.relTol, a.absTol, some a.dot, 0⟩

/-- `Solver(const Solver&) = default` (include/solvers.hpp:21). -/
def copy (o : SolverBase α) : Res (SolverBase α) := do
  let s ← copySizes o.rows o.cols
  .ok ⟨s.1, s.2, o.A, o.maxIter, o.verbose, o.relTol, o.absTol, o.dot, o.numIter⟩

/-- `swap(Solver&, Solver&)` (src/solvers.cpp:26-37). -/
def swapObj (l r : SolverBase α) : SolverBase α × SolverBase α :=
  let s := swapSizes (l.rows, l.cols) (r.rows, r.cols)
  (⟨s.1.1, s.1.2, r.A, r.maxIter, r.verbose, r.relTol, r.absTol, r.dot, r.numIter⟩,
    ⟨s.2.1, s.2.2, l.A, l.maxIter, l.verbose, l.relTol, l.absTol, l.dot, l.numIter⟩)

/-- `SetOperator(const Operator&)` (src/solvers.cpp:64-70). -/
def setOperator (m : OpMem α) (o : SolverBase α) (k : Nat) : Res (SolverBase α) := do
  let A ← m.get k
  let old ← m.deref o.A
  cassert (A.rows = old.rows)
  cassert (A.cols = old.cols)
  .ok { o with A := .to k }

/-- `SetMaxIter`, `SetRelTol`, `SetAbsTol`, `SetVerbose`, `SetOperator` (src/solvers.cpp:44-70). -/
def set (m : OpMem α) (o : SolverBase α) : SolverChange α → Res (SolverBase α)
  | .maxIter n => .ok { o with maxIter := n }
  | .relTol t => .ok { o with relTol := t }
  | .absTol t => .ok { o with absTol := t }
  | .verbose v => .ok { o with verbose := v }
  | .operator k => o.setOperator m k
  | _ => .ok o

/-- `assert(A_)` and then the operator. -/
def target (m : OpMem α) (o : SolverBase α) : Res (Op α) := do
  cassert (o.A ≠ .null)
  m.deref o.A

/-- The function `Dot_` points to. -/
def callee (o : SolverBase α) : Res (List α → List α → Res α) :=
  match o.dot with
  | some d => .ok d
  | none => .error .undefinedBehaviour

end SolverBase

/-- `class PCGSolver` (include/solvers.hpp:148-153). -/
structure PcgObj (α : Type) where
  base : SolverBase α
  M : CPtr
  Ap : List α
  r : List α
  p : List α
  z : List α

namespace PcgObj

/-- `PCGSolver() = default` (include/solvers.hpp:96), also what the move constructor starts from (src/solvers.cpp:122-125). -/
def blank [Zero α] : PcgObj α := ⟨SolverBase.blank, .indeterminate, [], [], [], []⟩

/-- The two constructors (src/solvers.cpp:91-114). -/
def make [Zero α] (m : OpMem α) (a : SolverArgs α) : Res (PcgObj α) := do
  let base ← SolverBase.make m a
  let A ← m.get a.A
  let Ap ← Solver.work A
  let r ← Solver.work A
  let p ← Solver.work A
  let z ← Solver.work A
  match a.M with
  | none => .ok ⟨base, .null, Ap, r, p, z⟩
  | some k => do
    let M ← m.get k
    cassert (A.rows = M.cols)
    cassert (M.rows = M.cols)
    .ok ⟨base, .to k, Ap, r, p, z⟩

/-- `PCGSolver(const PCGSolver&)` (src/solvers.cpp:116-120). -/
def copy (o : PcgObj α) : Res (PcgObj α) := do
  let base ← o.base.copy
  .ok ⟨base, o.M, o.Ap, o.r, o.p, o.z⟩

/-- `swap(PCGSolver&, PCGSolver&)` (src/solvers.cpp:134-143). -/
def swapObj (l r : PcgObj α) : PcgObj α × PcgObj α :=
  let b := SolverBase.swapObj l.base r.base
  (⟨b.1, r.M, r.Ap, r.r, r.p, r.z⟩, ⟨b.2, l.M, l.Ap, l.r, l.p, l.z⟩)

/-- `if (M_)` (src/solvers.cpp:156, 196). -/
def prec (m : OpMem α) (o : PcgObj α) : Res (Option (Op α)) :=
  match o.M with
  | .null => .ok none
  | p => do
    let M ← m.deref p
    .ok (some M)

/-- `Mult(b, x)` (src/solvers.cpp:145-223): the solver afterwards and the solution.  The pointers are followed once, after the checks. -/
def solve [Field α] [LinearOrder α] (m : OpMem α) (o : PcgObj α) (b x : List α) : Res (PcgObj α × List α) := do
  let A ← o.base.target m
  cassert ((x.length : Int) = A.rows)
  cassert ((b.length : Int) = A.rows)
  let M ← o.prec m
  let d ← o.base.callee
  let t ← Pcg.mult ⟨A, M, o.base.maxIter, o.base.relTol, o.base.absTol, d⟩ b x ⟨x, o.r, o.p, o.z, o.Ap, 0⟩
  .ok (⟨{ o.base with numIter := t.1 }, o.M, t.2.Ap, t.2.r, t.2.p, t.2.z⟩, t.2.x)

/-- The member functions that change a solver; `SetPreconditioner` is include/solvers.hpp:139. -/
def update [Field α] [LinearOrder α] (m : OpMem α) (o : PcgObj α) : SolverChange α → Res (PcgObj α)
  | .precond k => do
    let _ ← m.get k
    .ok { o with M := .to k }
  | .mult b x => do
    let t ← o.solve m b x
    .ok t.1
  | u => do
    let base ← o.base.set m u
    .ok { o with base := base }

/-- `class PCGSolver` while the operators are `m`. -/
def cls [Field α] [LinearOrder α] (m : OpMem α) : PlainCls (PcgObj α) (SolverArgs α) (SolverChange α) :=
  ⟨make m, copy, blank, swapObj, update m⟩

end PcgObj

/-- `class MINRESSolver` (include/solvers.hpp:197-202). -/
structure MinresObj (α : Type) where
  base : SolverBase α
  w0 : List α
  w1 : List α
  v0 : List α
  v1 : List α
  q : List α

namespace MinresObj

/-- `MINRESSolver() = default` (include/solvers.hpp:160), also what the move constructor starts from (src/solvers.cpp:260-263). -/
def blank [Zero α] : MinresObj α := ⟨SolverBase.blank, [], [], [], [], []⟩

/-- The constructor (src/solvers.cpp:244-252). -/
def make [Zero α] (m : OpMem α) (a : SolverArgs α) : Res (MinresObj α) := do
  let base ← SolverBase.make m a
  let A ← m.get a.A
  let w0 ← Solver.work A
  let w1 ← Solver.work A
  let v0 ← Solver.work A
  let v1 ← Solver.work A
  let q ← Solver.work A
  .ok ⟨base, w0, w1, v0, v1, q⟩

/-- `MINRESSolver(const MINRESSolver&)` (src/solvers.cpp:254-258). -/
def copy (o : MinresObj α) : Res (MinresObj α) := do
  let base ← o.base.copy
  .ok ⟨base, o.w0, o.w1, o.v0, o.v1, o.q⟩

/-- `swap(MINRESSolver&, MINRESSolver&)` (src/solvers.cpp:272-281). -/
def swapObj (l r : MinresObj α) : MinresObj α × MinresObj α :=
  let b := SolverBase.swapObj l.base r.base
  (⟨b.1, r.w0, r.w1, r.v0, r.v1, r.q⟩, ⟨b.2, l.w0, l.w1, l.v0, l.v1, l.q⟩)

/-- `Mult(b, x)` (src/solvers.cpp:283-361). -/
def solve [Field α] [LinearOrder α] (sqrt : α → α) (m : OpMem α) (o : MinresObj α) (b x : List α) : Res (MinresObj α × List α) := do
  let A ← o.base.target m
  let d ← o.base.callee
  let t ← Minres.mult ⟨A, o.base.maxIter, o.base.relTol, o.base.absTol, sqrt, d⟩ b x ⟨x, o.w0, o.w1, o.v0, o.v1, o.q, 0, 0, 0, 0, 0, 0, 0⟩
  .ok (⟨{ o.base with numIter := t.1 }, t.2.w0, t.2.w1, t.2.v0, t.2.v1, t.2.q⟩, t.2.x)

/-- The member functions that change a solver; there is no `SetPreconditioner`. -/
def update [Field α] [LinearOrder α] (sqrt : α → α) (m : OpMem α) (o : MinresObj α) : SolverChange α → Res (MinresObj α)
  | .mult b x => do
    let t ← o.solve sqrt m b x
    .ok t.1
  | u => do
    let base ← o.base.set m u
    .ok { o with base := base }

/-- `class MINRESSolver` while the operators are `m`. -/
def cls [Field α] [LinearOrder α] (sqrt : α → α) (m : OpMem α) : PlainCls (MinresObj α) (SolverArgs α) (SolverChange α) :=
  ⟨make m, copy, blank, swapObj, update sqrt m⟩

end MinresObj

/-- `class PMINRESSolver` (include/solvers.hpp:245-252). -/
structure PminresObj (α : Type) where
  base : SolverBase α
  M : CPtr
  w0 : List α
  w1 : List α
  v0 : List α
  v1 : List α
  u1 : List α
  q : List α

namespace PminresObj

/-- `PMINRESSolver() = default` (include/solvers.hpp:207), also what the move constructor starts from (src/solvers.cpp:404-407). -/
def blank [Zero α] : PminresObj α := ⟨SolverBase.blank, .indeterminate, [], [], [], [], [], []⟩

/-- The constructor (src/solvers.cpp:382-396); a preconditioner must be given. -/
def make [Zero α] (m : OpMem α) (a : SolverArgs α) : Res (PminresObj α) := do
  let base ← SolverBase.make m a
  let A ← m.get a.A
  let w0 ← Solver.work A
  let w1 ← Solver.work A
  let v0 ← Solver.work A
  let v1 ← Solver.work A
  let u1 ← Solver.work A
  let q ← Solver.work A
  match a.M with
  | none => .error .undefinedBehaviour
  | some k => do
    let M ← m.get k
    cassert (A.rows = M.cols)
    cassert (M.rows = M.cols)
    .ok ⟨base, .to k, w0, w1, v0, v1, u1, q⟩

/-- `PMINRESSolver(const PMINRESSolver&)` (src/solvers.cpp:398-402). -/
def copy (o : PminresObj α) : Res (PminresObj α) := do
  let base ← o.base.copy
  .ok ⟨base, o.M, o.w0, o.w1, o.v0, o.v1, o.u1, o.q⟩

/-- `swap(PMINRESSolver&, PMINRESSolver&)` (src/solvers.cpp:416-427). -/
def swapObj (l r : PminresObj α) : PminresObj α × PminresObj α :=
  let b := SolverBase.swapObj l.base r.base
  (⟨b.1, r.M, r.w0, r.w1, r.v0, r.v1, r.u1, r.q⟩, ⟨b.2, l.M, l.w0, l.w1, l.v0, l.v1, l.u1, l.q⟩)

/-- `Mult(b, x)` (src/solvers.cpp:429-515). -/
def solve [Field α] [LinearOrder α] (sqrt : α → α) (m : OpMem α) (o : PminresObj α) (b x : List α) : Res (PminresObj α × List α) := do
  let A ← o.base.target m
  cassert (o.M ≠ .null)
  cassert ((b.length : Int) = A.rows)
  cassert ((x.length : Int) = A.cols)
  let M ← m.deref o.M
  let d ← o.base.callee
  let t ← Pminres.mult ⟨A, o.base.maxIter, o.base.relTol, o.base.absTol, sqrt, d⟩ M b x
    ⟨x, o.w0, o.w1, o.v0, o.v1, o.u1, o.q, 0, 0, 0, 0, 0, 0, 0⟩
  .ok (⟨{ o.base with numIter := t.1 }, o.M, t.2.w0, t.2.w1, t.2.v0, t.2.v1, t.2.u1, t.2.q⟩, t.2.x)

/-- The member functions that change a solver; there is no `SetPreconditioner`. -/
def update [Field α] [LinearOrder α] (sqrt : α → α) (m : OpMem α) (o : PminresObj α) : SolverChange α → Res (PminresObj α)
  | .mult b x => do
    let t ← o.solve sqrt m b x
    .ok t.1
  | u => do
    let base ← o.base.set m u
    .ok { o with base := base }

/-- `class PMINRESSolver` while the operators are `m`. -/
def cls [Field α] [LinearOrder α] (sqrt : α → α) (m : OpMem α) : PlainCls (PminresObj α) (SolverArgs α) (SolverChange α) :=
  ⟨make m, copy, blank, swapObj, update sqrt m⟩

end PminresObj

/-- What a program does: with operators, and with solvers of one class. -/
inductive IterStmt (α : Type)
  /-- a new operator -/
  | newOp (A : Op α)
  /-- an operator changes in place -/
  | changeOp (k : Nat) (f : Op α → Op α)
  /-- the end of the life of an operator -/
  | freeOp (k : Nat)
  /-- a statement about solvers -/
  | solver (s : LifeStmt (SolverArgs α) (SolverChange α))

/-- The operators and the solvers of a program. -/
structure SolverWorld (α O : Type) where
  ops : OpMem α
  objs : List (Option O)

namespace SolverWorld
variable {O : Type}

/-- One statement. -/
def step (K : OpMem α → PlainCls O (SolverArgs α) (SolverChange α)) (w : SolverWorld α O) : IterStmt α → Res (SolverWorld α O)
  | .newOp A => .ok ⟨(w.ops.alloc A).1, w.objs⟩
  | .changeOp k f => do
    let A ← w.ops.get k
    let m ← w.ops.put k (f A)
    .ok ⟨m, w.objs⟩
  | .freeOp k => do
    let m ← w.ops.free k
    .ok ⟨m, w.objs⟩
  | .solver s => do
    let objs ← (K w.ops).step w.objs s
    .ok ⟨w.ops, objs⟩

/-- A program. -/
def run (K : OpMem α → PlainCls O (SolverArgs α) (SolverChange α)) (prog : List (IterStmt α)) (w : SolverWorld α O) : Res (SolverWorld α O) :=
  prog.foldlM (step K) w

end SolverWorld
end Linalg
