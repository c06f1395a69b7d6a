import Verif.Spec.Life
import Verif.Model.Handles

/-!
# Distributed vectors and matrices as values
-/

namespace Linalg
open Cpp

variable {α : Type}

/-- A `ParVector` as a value: on a communicator, or empty without one; an empty one may lack a global size. -/
inductive ParVecVal (α : Type)
  | full (comm : Int) (v : ParVec α)
  | void (sized : Bool)

namespace ParVecVal

/-- The constructors; hypre needs a communicator. -/
def make : ParVecObj.Args α → Res (ParVecVal α)
  | .none => .ok (.void false)
  | .val comm x part => do
    let v ← ParVec.ofVal x part
    if comm = 0 then .error .undefinedBehaviour else .ok (.full comm v)
  | .vect comm l part => do
    let v ← ParVec.ofVect l part
    if comm = 0 then .error .undefinedBehaviour else .ok (.full comm v)

/-- A copy is equal; a vector without communicator cannot be copied. -/
def copy : ParVecVal α → Res (ParVecVal α)
  | .full c v => .ok (.full c v)
  | .void _ => .error .undefinedBehaviour

/-- Assigning an element. -/
def update : ParVecVal α → Int × α → Res (ParVecVal α)
  | .full c v, u => do
    let data ← vwr v.data u.1 u.2
    .ok (.full c { v with data := data })
  | .void s, u => do
    let _ ← vwr ([] : List α) u.1 u.2
    .ok (.void s)

/-- The values. -/
def vals : LifeVals (ParVecVal α) (ParVecObj.Args α) (Int × α) := ⟨make, copy, .void true, fun _ => .ok (), update⟩

end ParVecVal

/-- What can be seen of a vector: its own entries, partition, global size and communicator, and the same again through its hypre pointer. -/
def ParVecObj.Shows (m : Mem (HCell α)) (o : ParVecObj) : ParVecVal α → Prop
  | .full comm v => o.own m = .ok (comm, v) ∧ o.seen m = .ok (comm, v)
  | .void _ => Hypre.reals m (.to o.data) = .ok [] ∧ o.pvect = .null

/-- A `ParMatrix` as a value: empty, or a matrix on a communicator; `views` if it has the two vectors that wrap the arrays of a caller. -/
inductive ParMatVal (α : Type)
  | full (comm rank : Int) (views : Bool) (M : ParMat α)
  | void

namespace ParMatVal

/-- hypre rearranges the entries of a block within its arrays. -/
def inPlace (r : Csr α → Csr α) (A : Csr α) : Csr α := { A with indices := (r A).indices, data := (r A).data }

/-- The checks of the base class on the starts. -/
def startsOk (rowStarts colStarts : List Int) : Res (Int × Int) := do
  let r1 ← rd rowStarts 1
  let r0 ← rd rowStarts 0
  let c1 ← rd colStarts 1
  let c0 ← rd colStarts 0
  cassert (r1 - r0 ≥ 0)
  cassert (c1 - c0 ≥ 0)
  cassert (rowStarts.length ≥ 3)
  cassert (colStarts.length ≥ 3)
  .ok (r1 - r0, c1 - c0)

/-- The constructors. -/
def make (r : Csr α → Csr α) : ParMatObj.Args α → Res (ParMatVal α)
  | .none => .ok .void
  | .all comm rank rowStarts colStarts diag offd colMap => do
    let n ← startsOk rowStarts colStarts
    if comm = 0 then .error .undefinedBehaviour
    else do
      let M ← ParMat.init (inPlace r) ⟨n.1, n.2, rowStarts, colStarts, diag, offd, colMap⟩
      .ok (.full comm rank true M)

/-- A copy has the same entries, rearranged by hypre once more; it has the two vectors only if the communicator is a positive number. -/
def copy (r : Csr α → Csr α) : ParMatVal α → Res (ParMatVal α)
  | .full comm rank _ M => .ok (.full comm rank (comm > 0 ∧ rank ≥ 0) { M with diag := inPlace r M.diag })
  | .void => .ok .void

/-- Scaling. -/
def update [Mul α] : ParMatVal α → α → Res (ParMatVal α)
  | .full comm rank views M, c => .ok (.full comm rank views (M.scale c))
  | .void, _ => .ok .void

/-- The values. -/
def vals [Mul α] (r : Csr α → Csr α) : LifeVals (ParMatVal α) (ParMatObj.Args α) α := ⟨make r, copy r, .void, fun _ => .ok (), update⟩

end ParMatVal

/-- What can be seen of a matrix: its own two blocks, and the same matrix through its hypre pointer; a product with the arrays of a caller
uses that matrix if there are vectors for it, and otherwise follows a null pointer. -/
def ParMatObj.Shows (m : Mem (HCell α)) (o : ParMatObj) : ParMatVal α → Prop
  | .full comm _ views M => o.diag.val m = .ok M.diag ∧ o.offd.val m = .ok M.offd ∧ o.seen m = .ok (comm, M) ∧
      if views then ∃ m', o.mult m = .ok (m', M) else o.mult m = .error .undefinedBehaviour
  | .void => o.diag.val m = .ok Csr.empty ∧ o.offd.val m = .ok Csr.empty ∧ o.A = .null

end Linalg
