import Verif.Model.Solvers

/-!
# Krylov solvers whose right-hand side and solution may share memory (src/solvers.cpp)

`Mult(const VectorView& b, VectorView x)` once more, for views of one memory (see `Model/View.lean`), which may overlap in any way.  The work vectors
are members of the solver and separate.  In the states below the field `x` is the whole memory.
-/

namespace Linalg
open Cpp

variable {α : Type}

namespace View

/-- `x.Add(alpha, p)` with `p` in separate memory (include/vectorview.hpp:380-391), and the like: `x[i] = f(x[i], p[i])`. -/
def updateFrom (x : View) (f : α → α → α) (p m : List α) : Res (List α) := do
  cassert ((p.length : Int) = x.size)
  forUp 0 x.size m (fun i m => do
    let b ← vrd p i
    let a ← x.get m i
    x.put m i (f a b))

/-- The loops over `i < size` of the MINRES solvers: `x[i] = f(x[i], y[i])`. -/
def updateFrom2 (x : View) (size : Int) (f : α → α → α) (y m : List α) : Res (List α) :=
  forUp 0 size m (fun i m => do
    let a ← x.get m i
    let b ← vrd y i
    x.put m i (f a b))

end View

namespace Pcg

/-- The code before the loop (src/solvers.cpp:152-165). -/
def startView [Zero α] [Sub α] (S : Pcg α) (b x : View) (s : PcgState α) : Res (PcgState α) := do
  let xs ← BlockOp.viewElems x s.x
  let Ap ← S.A.multResize xs s.Ap
  let bs ← BlockOp.viewElems b s.x
  let r ← Vec.update (fun u v => u - v) bs Ap
  let z ← S.precond r s.z
  .ok ⟨s.x, r, z, z, Ap, s.applied + 1⟩

/-- One pass of the loop (src/solvers.cpp:182-220); `true` means `break`. -/
def stepView [Field α] [LinearOrder α] (S : Pcg α) (x : View) (tol : α) (s : PcgState α) : Res (Bool × PcgState α) := do
  let Ap ← S.A.multResize s.p s.Ap
  let pAp ← S.dot s.p Ap
  let rz ← S.dot s.r s.z
  let alpha ← fdiv rz pAp
  cverify (pAp > -10 ^ 12)
  let m ← x.updateFrom (fun u v => u + alpha * v) s.p s.x
  let denom ← S.dot s.z s.r
  let r ← Vec.update (fun u v => u - alpha * v) s.r Ap
  let z ← S.precond r s.z
  let numer ← S.dot z r
  if numer < tol then .ok (true, ⟨m, r, s.p, z, Ap, s.applied + 1⟩)
  else do
    let beta ← fdiv numer denom
    let p ← Vec.update (fun u v => u + v) (s.p.map (fun u => u * beta)) z
    .ok (false, ⟨m, r, p, z, Ap, s.applied + 1⟩)

/-- `do ... while (++num_iter_ < max_iter_)` (src/solvers.cpp:180-222), as `Pcg.loop`. -/
def loopView [Field α] [LinearOrder α] (S : Pcg α) (x : View) (tol : α) : Nat → Int → PcgState α → Res (Int × PcgState α)
  | 0, k, s => do
    let t ← S.stepView x tol s
    .ok (if t.1 then k else k + 1, t.2)
  | fuel + 1, k, s => do
    let t ← S.stepView x tol s
    if t.1 then .ok (k, t.2) else S.loopView x tol fuel (k + 1) t.2

/-- `PCGSolver::Mult(b, x)` (src/solvers.cpp:145-223) on the memory `m`. -/
def multView [Field α] [LinearOrder α] (S : Pcg α) (b x : View) (m : List α) (w : PcgState α) : Res (Int × PcgState α) := do
  cassert (x.size = S.A.rows)
  cassert (b.size = S.A.rows)
  let s ← S.startView b x { w with x := m, applied := 0 }
  let r0 ← S.dot s.z s.r
  let tol := max (r0 * S.relTol * S.relTol) (S.absTol * S.absTol)
  let now ← S.dot s.z s.r
  if now < tol then .ok (1, s)
  else S.loopView x tol (S.maxIter - 2).toNat 1 s

end Pcg

namespace Minres

/-- The code before the loop (src/solvers.cpp:291-306). -/
def startView [Field α] [LinearOrder α] (S : Minres α) (b x : View) (m : List α) (w : MinresState α) : Res (MinresState α) := do
  let w0 := List.replicate w.w0.length (0 : α)
  let w1 := List.replicate w.w1.length (0 : α)
  let v0 := List.replicate w.v0.length (0 : α)
  let xs ← BlockOp.viewElems x m
  let q ← S.A.multResize xs w.q
  let bs ← BlockOp.viewElems b m
  let v1 ← Vec.update (fun u v => u - v) bs q
  let d ← S.dot v1 v1
  let beta := S.sqrt d
  .ok ⟨m, w0, w1, v0, v1, q, beta, beta, 1, 1, 0, 0, 1⟩

/-- One pass of the loop up to the test (src/solvers.cpp:312-356). -/
def stepView [Field α] [LinearOrder α] (S : Minres α) (x : View) (tol : α) (s : MinresState α) : Res (Bool × MinresState α) := do
  let size := S.A.cols
  let v1 ← divVec s.v1 s.beta
  let q ← S.A.multResize v1 s.q
  let alpha ← S.dot v1 q
  let v0 ← Vec.update3 size (fun v0 q v1 => q - s.beta * v0 - alpha * v1) s.v0 q v1
  let delta := s.gamma2 * alpha - s.gamma * s.sigma2 * s.beta
  let rho3 := s.sigma * s.beta
  let rho2 := s.sigma2 * alpha + s.gamma * s.gamma2 * s.beta
  let d ← S.dot v0 v0
  let beta := S.sqrt d
  let rho1 := S.sqrt (delta * delta + beta * beta)
  let c1 ← fdiv 1 rho1
  let c3 ← fdiv rho3 rho1
  let c2 ← fdiv rho2 rho1
  let w0 ← Vec.update3 size (fun w0 v1 w1 => c1 * v1 - c3 * w0 - c2 * w1) s.w0 v1 s.w1
  let gamma2 ← fdiv delta rho1
  let m ← x.updateFrom2 size (fun x w0 => x + gamma2 * s.eta * w0) w0 s.x
  let sigma2 ← fdiv beta rho1
  let eta := -sigma2 * s.eta
  .ok (decide (|eta| < tol), ⟨m, w0, s.w1, v0, v1, q, beta, eta, s.gamma2, gamma2, s.sigma2, sigma2, s.applied + 1⟩)

/-- The loop (src/solvers.cpp:310-360), as `Minres.loop`. -/
def loopView [Field α] [LinearOrder α] (S : Minres α) (x : View) (tol : α) : Nat → Int → MinresState α → Res (Int × MinresState α)
  | 0, k, s => .ok (k, s)
  | fuel + 1, k, s => do
    let t ← S.stepView x tol s
    if t.1 then .ok (k, t.2) else S.loopView x tol fuel (k + 1) (swapVecs t.2)

/-- `MINRESSolver::Mult(b, x)` (src/solvers.cpp:283-361) on the memory `m`. -/
def multView [Field α] [LinearOrder α] (S : Minres α) (b x : View) (m : List α) (w : MinresState α) : Res (Int × MinresState α) := do
  cassert (x.size = S.A.rows)
  cassert (b.size = S.A.rows)
  let s ← S.startView b x m w
  let tol := max (s.beta * S.relTol * S.relTol) (S.absTol * S.absTol)
  S.loopView x tol S.maxIter.toNat 1 s

end Minres

namespace Pminres

/-- The code before the loop (src/solvers.cpp:439-456). -/
def startView [Field α] [LinearOrder α] (S : Minres α) (M : Op α) (b x : View) (m : List α) (w : PminresState α) : Res (PminresState α) := do
  let w0 := List.replicate w.w0.length (0 : α)
  let w1 := List.replicate w.w1.length (0 : α)
  let v0 := List.replicate w.v0.length (0 : α)
  let xs ← BlockOp.viewElems x m
  let q ← S.A.multResize xs w.q
  let bs ← BlockOp.viewElems b m
  let v1 ← Vec.update (fun u v => u - v) bs q
  let u1 ← M.multResize v1 w.u1
  let d ← S.dot u1 v1
  let beta := S.sqrt d
  .ok ⟨m, w0, w1, v0, v1, u1, q, beta, beta, 1, 1, 0, 0, 1⟩

/-- One pass of the loop up to the test (src/solvers.cpp:462-509). -/
def stepView [Field α] [LinearOrder α] (S : Minres α) (M : Op α) (x : View) (tol : α) (s : PminresState α) : Res (Bool × PminresState α) := do
  let size := S.A.cols
  let v1 ← Minres.divVec s.v1 s.beta
  let u1 ← Minres.divVec s.u1 s.beta
  let q ← S.A.multResize u1 s.q
  let alpha ← S.dot u1 q
  let v0 ← Vec.update3 size (fun v0 q v1 => q - s.beta * v0 - alpha * v1) s.v0 q v1
  let delta := s.gamma2 * alpha - s.gamma * s.sigma2 * s.beta
  let rho3 := s.sigma * s.beta
  let rho2 := s.sigma2 * alpha + s.gamma * s.gamma2 * s.beta
  let q ← M.multResize v0 q
  let d ← S.dot v0 q
  let beta := S.sqrt d
  let rho1 := S.sqrt (delta * delta + beta * beta)
  let c1 ← fdiv 1 rho1
  let c3 ← fdiv rho3 rho1
  let c2 ← fdiv rho2 rho1
  let w0 ← Vec.update3 size (fun w0 u1 w1 => c1 * u1 - c3 * w0 - c2 * w1) s.w0 u1 s.w1
  let gamma2 ← fdiv delta rho1
  let m ← x.updateFrom2 size (fun x w0 => x + gamma2 * s.eta * w0) w0 s.x
  let sigma2 ← fdiv beta rho1
  let eta := -sigma2 * s.eta
  .ok (decide (|eta| < tol), ⟨m, w0, s.w1, v0, v1, u1, q, beta, eta, s.gamma2, gamma2, s.sigma2, sigma2, s.applied + 1⟩)

/-- The loop (src/solvers.cpp:460-514). -/
def loopView [Field α] [LinearOrder α] (S : Minres α) (M : Op α) (x : View) (tol : α) :
    Nat → Int → PminresState α → Res (Int × PminresState α)
  | 0, k, s => .ok (k, s)
  | fuel + 1, k, s => do
    let t ← stepView S M x tol s
    if t.1 then .ok (k, t.2) else loopView S M x tol fuel (k + 1) (swapVecs t.2)

/-- `PMINRESSolver::Mult(b, x)` (src/solvers.cpp:429-515) on the memory `m`. -/
def multView [Field α] [LinearOrder α] (S : Minres α) (M : Op α) (b x : View) (m : List α) (w : PminresState α) : Res (Int × PminresState α) := do
  cassert (b.size = S.A.rows)
  cassert (x.size = S.A.cols)
  let s ← startView S M b x m w
  let tol := max (s.beta * S.relTol * S.relTol) (S.absTol * S.absTol)
  loopView S M x tol S.maxIter.toNat 1 s

end Pminres
end Linalg
