import Verif.Model.ParTranspose
import Verif.Model.Eigen

/-!
# hypre's communication package in vectors (modules/parlinalgcpp/src/parcommpkg.cpp), the number of stored entries of a distributed matrix
(modules/parlinalgcpp/src/parmatrix.cpp), and the checks that throw (include/utilities.hpp)
-/

namespace Linalg
open Cpp

namespace Par

/-- `hypre_ParCSRCommPkg`, the arrays being at least as long as they are given here. -/
structure HyprePkg where
  numSends : Int
  sendProcs : List Int
  sendStarts : List Int
  sendElmts : List Int
  numRecvs : Int
  recvProcs : List Int
  recvStarts : List Int
  deriving DecidableEq

/-- `v.resize(n)` of an empty vector and `std::copy_n(src, n, std::begin(v))`. -/
def copyN (src : List Int) (n : Int) : Res (List Int) := do
  let v ← mkVec n (0 : Int)
  need (src.length : Int) n
  .ok (overwrite (src.take n.toNat) v)

/-- `ParCommPkg(A)` (modules/parlinalgcpp/src/parcommpkg.cpp:6-33): `A` may be null, and its package may be.  `A->comm` is read before the
assertion that there is an `A`.  `back()` of a vector without elements is undefined. -/
def parCommPkg (A : Option (Option HyprePkg)) : Res HyprePkg :=
  match A with
  | none => .error .undefinedBehaviour
  | some none => .error .assertFail
  | some (some p) => do
    let sendProcs ← copyN p.sendProcs p.numSends
    let sendStarts ← copyN p.sendStarts (p.numSends + 1)
    match sendStarts.getLast? with
    | none => .error .undefinedBehaviour
    | some last => do
      let sendElmts ← copyN p.sendElmts last
      let recvProcs ← copyN p.recvProcs p.numRecvs
      let recvStarts ← copyN p.recvStarts (p.numRecvs + 1)
      .ok ⟨p.numSends, sendProcs, sendStarts, sendElmts, p.numRecvs, recvProcs, recvStarts⟩

/-- `ParMatrix::MakeCommPkg()` (modules/parlinalgcpp/src/parmatrix.cpp:347-352). -/
def makeCommPkg (A : Option (Option HyprePkg)) : Res HyprePkg := do
  cassert A.isSome
  parCommPkg A

/-- What `hypre_ParCSRMatrixSetNumNonzeros` adds on a process: the last elements of the two arrays of row pointers. -/
def localNonzeros {α : Type} (M : ParMat α) : Res Int := do
  let a ← rd M.diag.indptr M.diag.rows
  let b ← rd M.offd.indptr M.diag.rows
  .ok (a + b)

/-- `ParMatrix::nnz()` (modules/parlinalgcpp/src/parmatrix.cpp:365-368) of a matrix that has its hypre object (parmatrix.cpp:185), the same
on all processes. -/
def nnz {α : Type} (Ms : List (ParMat α)) : Res Int := do
  let l ← Ms.mapM localNonzeros
  .ok l.sum

end Par

/-- `linalgcpp_assert(expression, message)` (include/utilities.hpp:9-19), with and without `NDEBUG`. -/
def linalgcppAssert (ndebug : Bool) (expression : Bool) : Res Unit :=
  if ndebug then (if expression then .ok () else .error .threw) else .ok ()

/-- `linalgcpp_verify(expression, message)` (include/utilities.hpp:21-29). -/
def linalgcppVerify (_ndebug : Bool) (expression : Bool) : Res Unit := if expression then .ok () else .error .threw

end Linalg
