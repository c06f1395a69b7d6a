import Verif.Model.ParSolver

/-!
# Solvers as values
-/

namespace Linalg
open Cpp

variable {α : Type}

/-- A solver as a value. -/
inductive SolverVal (α : Type)
  /-- one that works, for a matrix; `cfg` are the settings the library works with, if it was given any; `views` if it has the two vectors
  that wrap the arrays of a caller -/
  | works (views : Bool) (A : ParMatVal α) (s : SolverSettings α) (cfg : Option (SolverSettings α))
  /-- one whose solver in the library was made but never set up -/
  | unready (views : Bool) (A : ParMatVal α) (s : SolverSettings α)
  /-- one without a solver in the library that gives one back nevertheless -/
  | noHandle (views : Bool) (A : ParMatVal α) (s : SolverSettings α)
  /-- an empty one -/
  | void
  /-- one with members that were never set -/
  | junk

namespace SolverVal

/-- Whether the library keeps something for the solver. -/
def keeps : SolverKind → Bool
  | .boomer => true
  | .sails => true
  | .cg => true
  | _ => false

/-- Construction: the library is given the settings. -/
def make (kind : SolverKind) : SolverObj.Args α → Res (SolverVal α)
  | .none => .ok .void
  | .all .void _ => .error .outOfBounds
  | .all (.full comm rank views M) s => do
    cassert (M.rows = M.cols)
    cassert (M.globalRows = M.globalCols)
    .ok (.works true (.full comm rank views M) s (if keeps kind then some s else none))

/-- What a matrix is after copying it: rearranged by hypre. -/
def again (r : Csr α → Csr α) : ParMatVal α → ParMatVal α
  | .full comm rank _ M => .full comm rank (comm > 0 ∧ rank ≥ 0) { M with diag := ParMatVal.inPlace r M.diag }
  | .void => .void

/-- Whether there are vectors after copying. -/
def seesCopy : ParMatVal α → Bool
  | .full comm rank _ _ => comm > 0 ∧ rank ≥ 0
  | .void => false

/-- What copying gives. -/
def copy (r : Csr α → Csr α) (kind : SolverKind) : SolverVal α → Res (SolverVal α)
  | .works _ A s _ =>
    match kind with
    | .boomer => .ok (.unready (seesCopy A) (again r A) s)
    | .sails => .ok (.noHandle (seesCopy A) (again r A) s)
    | .cg => if seesCopy A then .ok (.works true (again r A) s none) else .error .undefinedBehaviour
    | _ => .ok (.works (seesCopy A) (again r A) s none)
  | .unready _ A s => .ok (.unready (seesCopy A) (again r A) s)
  | .noHandle _ A s => .ok (.noHandle (seesCopy A) (again r A) s)
  | .void => if kind = .smoother then .error .assertFail else .ok .void
  | .junk => if kind = .smoother then .error .assertFail else .error .undefinedBehaviour

/-- What is left behind by moving. -/
def blank : SolverKind → SolverVal α
  | .base => .junk
  | .smoother => .junk
  | _ => .void

/-- Whether destruction goes well. -/
def destroy : SolverVal α → Res Unit
  | .noHandle _ _ _ => .error .undefinedBehaviour
  | .junk => .error .undefinedBehaviour
  | _ => .ok ()

/-- A product. -/
def update : SolverVal α → Unit → Res (SolverVal α)
  | .works true A s cfg, _ => .ok (.works true A s cfg)
  | _, _ => .error .undefinedBehaviour

/-- The values. -/
def vals (r : Csr α → Csr α) (kind : SolverKind) : LifeVals (SolverVal α) (SolverObj.Args α) Unit :=
  ⟨make kind, copy r kind, blank kind, destroy, update⟩

end SolverVal

/-- What can be seen of a solver: its matrix, its settings, and the matrix and settings a product works with. -/
def SolverObj.Shows (kind : SolverKind) (m : Mem (SCell α)) (o : SolverObj α) : SolverVal α → Prop
  | .works views A s cfg => o.A = A ∧ o.settings = some s ∧ mult kind m o = if views then .ok (A, cfg) else .error .undefinedBehaviour
  | .unready _ A s => o.A = A ∧ o.settings = some s ∧ mult kind m o = .error .undefinedBehaviour
  | .noHandle _ A s => o.A = A ∧ o.settings = some s ∧ mult kind m o = .error .undefinedBehaviour
  | .void => o.A = .void ∧ mult kind m o = .error .undefinedBehaviour
  | .junk => o.A = .void

end Linalg
