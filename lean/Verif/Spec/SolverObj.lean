import Verif.Model.SolverObj
import Verif.Spec.Plain

/-!
# Solvers as values that refer to operators
-/

namespace Linalg
open Cpp

variable {α V : Type}

/-- One statement of a program in which solvers are values. -/
def valStep (S : OpMem α → LifeVals V (SolverArgs α) (SolverChange α)) (w : OpMem α × List (Option V)) :
    IterStmt α → Res (OpMem α × List (Option V))
  | .newOp A => .ok (w.1 ++ [some A], w.2)
  | .changeOp k f => do
    let A ← w.1.get k
    .ok (w.1.set k (some (f A)), w.2)
  | .freeOp k => do
    let _ ← w.1.get k
    .ok (w.1.set k none, w.2)
  | .solver s => do
    let vs ← (S w.1).step w.2 s
    .ok (w.1, vs)

/-- A program in which solvers are values. -/
def valRun (S : OpMem α → LifeVals V (SolverArgs α) (SolverChange α)) (prog : List (IterStmt α)) (w : OpMem α × List (Option V)) :
    Res (OpMem α × List (Option V)) := prog.foldlM (valStep S) w

/-- The operator does not look at what its output held before. -/
def Op.Overwrites (op : Op α) : Prop := ∀ x y z : List α, y.length = z.length → op.mult x y = op.mult x z

/-- The program changes operators only in ways that keep their sizes. -/
def KeepsSizes (prog : List (IterStmt α)) : Prop :=
  ∀ s ∈ prog, match s with
    | .changeOp _ f => ∀ A, (f A).rows = A.rows ∧ (f A).cols = A.cols
    | _ => True

end Linalg
