import Verif.Model.Handles

/-!
# The vectors `ParMatrix` hands to hypre (modules/parlinalgcpp)

`Mult` and `MultAT` on plain vectors wrap them in the two `hypre_ParVector`s of the `ParOperator`, which say how the elements are distributed.
-/

namespace Linalg
open Cpp

variable {α : Type}

/-- How a `hypre_ParVector` says it is distributed: its global size and its partitioning. -/
def Hypre.layout (m : Mem (HCell α)) (p : CPtr) : Res (Int × List Int) := do
  let k ← deref p
  match ← m.get k with
  | .pvec _ size starts _ _ _ => do
    let l ← ints m starts
    .ok (size, l)
  | _ => .error .undefinedBehaviour

/-- The vectors `Mult(input, output)` passes to `hypre_ParCSRMatrixMatvec` as the argument and the result
(modules/parlinalgcpp/src/parmatrix.cpp:218-226). -/
def ParOpObj.multLayouts (m : Mem (HCell α)) (o : ParOpObj) : Res ((Int × List Int) × (Int × List Int)) := do
  let x ← Hypre.layout m o.x
  let y ← Hypre.layout m o.b
  .ok (x, y)

/-- The vectors `MultAT(input, output)` passes to `hypre_ParCSRMatrixMatvecT` (modules/parlinalgcpp/src/parmatrix.cpp:243-251). -/
def ParOpObj.multATLayouts (m : Mem (HCell α)) (o : ParOpObj) : Res ((Int × List Int) × (Int × List Int)) := do
  let x ← Hypre.layout m o.b
  let y ← Hypre.layout m o.x
  .ok (x, y)

end Linalg
