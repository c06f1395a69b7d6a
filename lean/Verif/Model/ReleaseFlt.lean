import Verif.Model.Norm
import Verif.Model.Release

/-!
# Division by a zero vector norm with and without NDEBUG

`vect /= val` asserts `val != 0`; without assertions the division is carried out.  `Normalize` and the MINRES solvers divide by a
norm, so what they do with a zero vector depends on the build.  The functions below are those of `Model/Floats` and `Model/Norm`
with the build as a parameter.  The assertions that compare sizes inside the operators are kept in both builds: the theorems about
them are for vectors of the sizes that the operators ask for.
-/

namespace Linalg
open Cpp Floats

variable {F : Type} [Floats F]

namespace Rel

/-- `vect /= val` (include/vectorview.hpp:605-616). -/
def divVec (b : Build) (v : List F) (val : F) : Res (List F) := do
  b.assert (eq val 0 = false)
  .ok (v.map (fun u => u / val))

/-- `Normalize(vect)` (src/vectorview.cpp:39-42). -/
def normalize (b : Build) (sqrt : F → F) (v : List F) : Res (List F) := do
  let nrm ← Vec.l2Norm sqrt v
  divVec b v nrm

end Rel

namespace Minres

/-- One pass of the loop up to the test (src/solvers.cpp:312-356). -/
def stepB (B : Build) (S : Minres F) (tol : F) (s : MinresState F) : Res (Bool × MinresState F) := do
  let size := S.A.cols
  let v1 ← Rel.divVec B s.v1 s.beta
  let q ← S.A.multResize v1 s.q
  let alpha ← S.dot v1 q
  let v0 ← Vec.update3 size (fun v0 q v1 => q - s.beta * v0 - alpha * v1) s.v0 q v1
  let delta := s.gamma2 * alpha - s.gamma * s.sigma2 * s.beta
  let rho3 := s.sigma * s.beta
  let rho2 := s.sigma2 * alpha + s.gamma * s.gamma2 * s.beta
  let d ← S.dot v0 v0
  let beta := S.sqrt d
  let rho1 := S.sqrt (delta * delta + beta * beta)
  let w0 ← Vec.update3 size (fun w0 v1 w1 => 1 / rho1 * v1 - rho3 / rho1 * w0 - rho2 / rho1 * w1) s.w0 v1 s.w1
  let gamma2 := delta / rho1
  let x ← Vec.update2 size (fun x w0 => x + gamma2 * s.eta * w0) s.x w0
  let sigma2 := beta / rho1
  let eta := -sigma2 * s.eta
  .ok (lt (abs eta) tol, ⟨x, w0, s.w1, v0, v1, q, beta, eta, s.gamma2, gamma2, s.sigma2, sigma2, s.applied + 1⟩)

/-- The loop (src/solvers.cpp:310-360). -/
def loopB (B : Build) (S : Minres F) (tol : F) : Nat → Int → MinresState F → Res (Int × MinresState F)
  | 0, k, s => .ok (k, s)
  | fuel + 1, k, s => do
    let t ← stepB B S tol s
    if t.1 then .ok (k, t.2) else loopB B S tol fuel (k + 1) (swapVecs t.2)

/-- `MINRESSolver::Mult(b, x)` (src/solvers.cpp:283-361). -/
def multB (B : Build) (S : Minres F) (b x : List F) (w : MinresState F) : Res (Int × MinresState F) := do
  B.assert ((x.length : Int) = S.A.rows)
  B.assert ((b.length : Int) = S.A.rows)
  let s ← S.startF b x w
  let tol := Flt.stdMax (s.beta * S.relTol * S.relTol) (S.absTol * S.absTol)
  loopB B S tol S.maxIter.toNat 1 s

end Minres

namespace Pminres

/-- One pass of the loop up to the test (src/solvers.cpp:462-509). -/
def stepB (B : Build) (S : Minres F) (M : Op F) (tol : F) (s : PminresState F) : Res (Bool × PminresState F) := do
  let size := S.A.cols
  let v1 ← Rel.divVec B s.v1 s.beta
  let u1 ← Rel.divVec B s.u1 s.beta
  let q ← S.A.multResize u1 s.q
  let alpha ← S.dot u1 q
  let v0 ← Vec.update3 size (fun v0 q v1 => q - s.beta * v0 - alpha * v1) s.v0 q v1
  let delta := s.gamma2 * alpha - s.gamma * s.sigma2 * s.beta
  let rho3 := s.sigma * s.beta
  let rho2 := s.sigma2 * alpha + s.gamma * s.gamma2 * s.beta
  let q ← M.multResize v0 q
  let d ← S.dot v0 q
  let beta := S.sqrt d
  let rho1 := S.sqrt (delta * delta + beta * beta)
  let w0 ← Vec.update3 size (fun w0 u1 w1 => 1 / rho1 * u1 - rho3 / rho1 * w0 - rho2 / rho1 * w1) s.w0 u1 s.w1
  let gamma2 := delta / rho1
  let x ← Vec.update2 size (fun x w0 => x + gamma2 * s.eta * w0) s.x w0
  let sigma2 := beta / rho1
  let eta := -sigma2 * s.eta
  .ok (lt (abs eta) tol, ⟨x, w0, s.w1, v0, v1, u1, q, beta, eta, s.gamma2, gamma2, s.sigma2, sigma2, s.applied + 1⟩)

/-- The loop (src/solvers.cpp:460-514). -/
def loopB (B : Build) (S : Minres F) (M : Op F) (tol : F) : Nat → Int → PminresState F → Res (Int × PminresState F)
  | 0, k, s => .ok (k, s)
  | fuel + 1, k, s => do
    let t ← stepB B S M tol s
    if t.1 then .ok (k, t.2) else loopB B S M tol fuel (k + 1) (swapVecs t.2)

/-- `PMINRESSolver::Mult(b, x)` (src/solvers.cpp:429-515). -/
def multB (B : Build) (S : Minres F) (M : Op F) (b x : List F) (w : PminresState F) : Res (Int × PminresState F) := do
  B.assert ((b.length : Int) = S.A.rows)
  B.assert ((x.length : Int) = S.A.cols)
  let s ← startF S M b x w
  let tol := Flt.stdMax (s.beta * S.relTol * S.relTol) (S.absTol * S.absTol)
  loopB B S M tol S.maxIter.toNat 1 s

end Pminres
end Linalg
