import Verif.Model.Block

/-!
# Krylov solvers (include/solvers.hpp, src/solvers.cpp)

The element type is an ordered field (the code uses `double`), `std::sqrt` is a parameter.  A division by zero, which
gives `inf` or `nan` in the code, is the outcome `divZero`.  The vectors of a call (right-hand side, solution, work
vectors) are separate memory.  Printing in verbose mode is left out.  The field `applied` of the states is not in the code:
it counts the calls of `A_->Mult`.
-/

namespace Linalg
open Cpp

variable {α : Type}

/-- A floating-point division. -/
def fdiv [Zero α] [Div α] [DecidableEq α] (a b : α) : Res α :=
  if b = 0 then .error .divZero else .ok (a / b)

namespace Vec

/-- The loop of `Add(alpha, rhs)`, `Sub(alpha, rhs)`, `+=`, `-=` (include/vectorview.hpp:380-420, 552-584) for vectors in
separate memory: `x[i] = f(x[i], y[i])`. -/
def update (f : α → α → α) (x y : List α) : Res (List α) := do
  cassert (y.length = x.length)
  forUp 0 (x.length : Int) x (fun i x => do
    let b ← vrd y i
    let a ← vrd x i
    vwr x i (f a b))

/-- The loops over `i < size` of the MINRES solvers: `x[i] = f(x[i], y[i], z[i])`. -/
def update3 (size : Int) (f : α → α → α → α) (x y z : List α) : Res (List α) :=
  forUp 0 size x (fun i x => do
    let b ← vrd y i
    let a ← vrd x i
    let c ← vrd z i
    vwr x i (f a b c))

/-- The same with two vectors. -/
def update2 (size : Int) (f : α → α → α) (x y : List α) : Res (List α) :=
  forUp 0 size x (fun i x => do
    let a ← vrd x i
    let b ← vrd y i
    vwr x i (f a b))

end Vec

/-! ## PCG -/

/-- `class PCGSolver` (include/solvers.hpp:92-154) without its work vectors. -/
structure Pcg (α : Type) where
  A : Op α
  M : Option (Op α)
  maxIter : Int
  relTol : α
  absTol : α
  dot : List α → List α → Res α

/-- The solution and the work vectors of `PCGSolver::Mult`. -/
structure PcgState (α : Type) where
  x : List α
  r : List α
  p : List α
  z : List α
  Ap : List α
  applied : Int
  deriving DecidableEq, Repr

namespace Pcg

/-- The two constructors (src/solvers.cpp:13-24, 91-114). -/
def new (A : Op α) (M : Option (Op α)) (maxIter : Int) (relTol absTol : α) (dot : List α → List α → Res α) :
    Res (Pcg α) := do
  cassert (maxIter ≥ 0)
  cassert (A.rows = A.cols)
  match M with
  | none => .ok ⟨A, none, maxIter, relTol, absTol, dot⟩
  | some M => do
    cassert (A.rows = M.cols)
    cassert (M.rows = M.cols)
    .ok ⟨A, some M, maxIter, relTol, absTol, dot⟩

/-- `if (M_) M_->Mult(r_, z_); else z_ = r_;` (src/solvers.cpp:156-163, 196-203). -/
def precond [Zero α] (S : Pcg α) (r z : List α) : Res (List α) :=
  match S.M with
  | none => .ok r
  | some M => M.multResize r z

/-- The code before the loop (src/solvers.cpp:152-165). -/
def start [Zero α] [Sub α] (S : Pcg α) (b : List α) (s : PcgState α) : Res (PcgState α) := do
  let Ap ← S.A.multResize s.x s.Ap
  let r ← Vec.update (fun u v => u - v) b Ap
  let z ← S.precond r s.z
  .ok ⟨s.x, r, z, z, Ap, s.applied + 1⟩

/-- One pass of the loop (src/solvers.cpp:182-220); `true` means `break`. -/
def step [Field α] [LinearOrder α] (S : Pcg α) (tol : α) (s : PcgState α) : Res (Bool × PcgState α) := do
  let Ap ← S.A.multResize s.p s.Ap
  let pAp ← S.dot s.p Ap
  let rz ← S.dot s.r s.z
  let alpha ← fdiv rz pAp
  cverify (pAp > -10 ^ 12)
  let x ← Vec.update (fun u v => u + alpha * v) s.x s.p
  let denom ← S.dot s.z s.r
  let r ← Vec.update (fun u v => u - alpha * v) s.r Ap
  let z ← S.precond r s.z
  let numer ← S.dot z r
  if numer < tol then .ok (true, ⟨x, r, s.p, z, Ap, s.applied + 1⟩)
  else do
    let beta ← fdiv numer denom
    let p ← Vec.update (fun u v => u + v) (s.p.map (fun u => u * beta)) z
    .ok (false, ⟨x, r, p, z, Ap, s.applied + 1⟩)

/-- `do ... while (++num_iter_ < max_iter_)` (src/solvers.cpp:180-222): `fuel` is the number of times the condition can
still hold, `k` is `num_iter_`. -/
def loop [Field α] [LinearOrder α] (S : Pcg α) (tol : α) : Nat → Int → PcgState α → Res (Int × PcgState α)
  | 0, k, s => do
    let t ← S.step tol s
    .ok (if t.1 then k else k + 1, t.2)
  | fuel + 1, k, s => do
    let t ← S.step tol s
    if t.1 then .ok (k, t.2) else S.loop tol fuel (k + 1) t.2

/-- `PCGSolver::Mult(b, x)` (src/solvers.cpp:145-223): `num_iter_` and the final vectors; `w` holds the old work
vectors. -/
def mult [Field α] [LinearOrder α] (S : Pcg α) (b x : List α) (w : PcgState α) : Res (Int × PcgState α) := do
  cassert ((x.length : Int) = S.A.rows)
  cassert ((b.length : Int) = S.A.rows)
  let s ← S.start b { w with x := x, applied := 0 }
  let r0 ← S.dot s.z s.r
  let tol := max (r0 * S.relTol * S.relTol) (S.absTol * S.absTol)
  let now ← S.dot s.z s.r
  if now < tol then .ok (1, s)
  else S.loop tol (S.maxIter - 2).toNat 1 s

end Pcg

/-! ## MINRES -/

/-- `class MINRESSolver` (include/solvers.hpp:156-201) and `class PMINRESSolver` (203-253) without work vectors. -/
structure Minres (α : Type) where
  A : Op α
  maxIter : Int
  relTol : α
  absTol : α
  sqrt : α → α
  dot : List α → List α → Res α

/-- Solution, work vectors and scalars of `MINRESSolver::Mult`. -/
structure MinresState (α : Type) where
  x : List α
  w0 : List α
  w1 : List α
  v0 : List α
  v1 : List α
  q : List α
  beta : α
  eta : α
  gamma : α
  gamma2 : α
  sigma : α
  sigma2 : α
  applied : Int
  deriving DecidableEq, Repr

namespace Minres

/-- `vect /= val` (include/vectorview.hpp:605-616). -/
def divVec [Zero α] [Div α] [DecidableEq α] (v : List α) (val : α) : Res (List α) := do
  cassert (val ≠ 0)
  .ok (v.map (fun u => u / val))

/-- The code before the loop (src/solvers.cpp:291-306). -/
def start [Field α] [LinearOrder α] (S : Minres α) (b x : List α) (w : MinresState α) : Res (MinresState α) := do
  let w0 := List.replicate w.w0.length (0 : α)
  let w1 := List.replicate w.w1.length (0 : α)
  let v0 := List.replicate w.v0.length (0 : α)
  let q ← S.A.multResize x w.q
  let v1 ← Vec.update (fun u v => u - v) b q
  let d ← S.dot v1 v1
  let beta := S.sqrt d
  .ok ⟨x, w0, w1, v0, v1, q, beta, beta, 1, 1, 0, 0, 1⟩

/-- One pass of the loop up to the test (src/solvers.cpp:312-356); `true` means `break`. -/
def step [Field α] [LinearOrder α] (S : Minres α) (tol : α) (s : MinresState α) : Res (Bool × MinresState α) := do
  let size := S.A.cols
  let v1 ← divVec s.v1 s.beta
  let q ← S.A.multResize v1 s.q
  let alpha ← S.dot v1 q
  let v0 ← Vec.update3 size (fun v0 q v1 => q - s.beta * v0 - alpha * v1) s.v0 q v1
  let delta := s.gamma2 * alpha - s.gamma * s.sigma2 * s.beta
  let rho3 := s.sigma * s.beta
  let rho2 := s.sigma2 * alpha + s.gamma * s.gamma2 * s.beta
  let d ← S.dot v0 v0
  let beta := S.sqrt d
  let rho1 := S.sqrt (delta * delta + beta * beta)
  let c1 ← fdiv 1 rho1
  let c3 ← fdiv rho3 rho1
  let c2 ← fdiv rho2 rho1
  let w0 ← Vec.update3 size (fun w0 v1 w1 => c1 * v1 - c3 * w0 - c2 * w1) s.w0 v1 s.w1
  let gamma2 ← fdiv delta rho1
  let x ← Vec.update2 size (fun x w0 => x + gamma2 * s.eta * w0) s.x w0
  let sigma2 ← fdiv beta rho1
  let eta := -sigma2 * s.eta
  .ok (decide (|eta| < tol), ⟨x, w0, s.w1, v0, v1, q, beta, eta, s.gamma2, gamma2, s.sigma2, sigma2, s.applied + 1⟩)

/-- `swap(v0_, v1_); swap(w0_, w1_);` (src/solvers.cpp:358-359). -/
def swapVecs (s : MinresState α) : MinresState α := { s with v0 := s.v1, v1 := s.v0, w0 := s.w1, w1 := s.w0 }

/-- `for (num_iter_ = 1; num_iter_ <= max_iter_; ++num_iter_)` (src/solvers.cpp:310-360): `fuel` is the number of passes
that remain, `k` is `num_iter_`. -/
def loop [Field α] [LinearOrder α] (S : Minres α) (tol : α) : Nat → Int → MinresState α → Res (Int × MinresState α)
  | 0, k, s => .ok (k, s)
  | fuel + 1, k, s => do
    let t ← S.step tol s
    if t.1 then .ok (k, t.2) else S.loop tol fuel (k + 1) (swapVecs t.2)

/-- `MINRESSolver::Mult(b, x)` (src/solvers.cpp:283-361): `num_iter_` and the final vectors. -/
def mult [Field α] [LinearOrder α] (S : Minres α) (b x : List α) (w : MinresState α) : Res (Int × MinresState α) := do
  cassert ((x.length : Int) = S.A.rows)
  cassert ((b.length : Int) = S.A.rows)
  let s ← S.start b x w
  let tol := max (s.beta * S.relTol * S.relTol) (S.absTol * S.absTol)
  S.loop tol S.maxIter.toNat 1 s

end Minres

/-! ## Preconditioned MINRES -/

/-- Solution, work vectors and scalars of `PMINRESSolver::Mult`. -/
structure PminresState (α : Type) where
  x : List α
  w0 : List α
  w1 : List α
  v0 : List α
  v1 : List α
  u1 : List α
  q : List α
  beta : α
  eta : α
  gamma : α
  gamma2 : α
  sigma : α
  sigma2 : α
  applied : Int
  deriving DecidableEq, Repr

namespace Pminres

/-- The code before the loop (src/solvers.cpp:439-456). -/
def start [Field α] [LinearOrder α] (S : Minres α) (M : Op α) (b x : List α) (w : PminresState α) :
    Res (PminresState α) := do
  let w0 := List.replicate w.w0.length (0 : α)
  let w1 := List.replicate w.w1.length (0 : α)
  let v0 := List.replicate w.v0.length (0 : α)
  let q ← S.A.multResize x w.q
  let v1 ← Vec.update (fun u v => u - v) b q
  let u1 ← M.multResize v1 w.u1
  let d ← S.dot u1 v1
  let beta := S.sqrt d
  .ok ⟨x, w0, w1, v0, v1, u1, q, beta, beta, 1, 1, 0, 0, 1⟩

/-- One pass of the loop up to the test (src/solvers.cpp:462-509). -/
def step [Field α] [LinearOrder α] (S : Minres α) (M : Op α) (tol : α) (s : PminresState α) :
    Res (Bool × PminresState α) := do
  let size := S.A.cols
  let v1 ← Minres.divVec s.v1 s.beta
  let u1 ← Minres.divVec s.u1 s.beta
  let q ← S.A.multResize u1 s.q
  let alpha ← S.dot u1 q
  let v0 ← Vec.update3 size (fun v0 q v1 => q - s.beta * v0 - alpha * v1) s.v0 q v1
  let delta := s.gamma2 * alpha - s.gamma * s.sigma2 * s.beta
  let rho3 := s.sigma * s.beta
  let rho2 := s.sigma2 * alpha + s.gamma * s.gamma2 * s.beta
  let q ← M.multResize v0 q
  let d ← S.dot v0 q
  let beta := S.sqrt d
  let rho1 := S.sqrt (delta * delta + beta * beta)
  let c1 ← fdiv 1 rho1
  let c3 ← fdiv rho3 rho1
  let c2 ← fdiv rho2 rho1
  let w0 ← Vec.update3 size (fun w0 u1 w1 => c1 * u1 - c3 * w0 - c2 * w1) s.w0 u1 s.w1
  let gamma2 ← fdiv delta rho1
  let x ← Vec.update2 size (fun x w0 => x + gamma2 * s.eta * w0) s.x w0
  let sigma2 ← fdiv beta rho1
  let eta := -sigma2 * s.eta
  .ok (decide (|eta| < tol),
    ⟨x, w0, s.w1, v0, v1, u1, q, beta, eta, s.gamma2, gamma2, s.sigma2, sigma2, s.applied + 1⟩)

/-- `swap(u1_, q_); swap(v0_, v1_); swap(w0_, w1_);` (src/solvers.cpp:511-513). -/
def swapVecs (s : PminresState α) : PminresState α :=
  { s with u1 := s.q, q := s.u1, v0 := s.v1, v1 := s.v0, w0 := s.w1, w1 := s.w0 }

/-- The loop (src/solvers.cpp:460-514). -/
def loop [Field α] [LinearOrder α] (S : Minres α) (M : Op α) (tol : α) :
    Nat → Int → PminresState α → Res (Int × PminresState α)
  | 0, k, s => .ok (k, s)
  | fuel + 1, k, s => do
    let t ← step S M tol s
    if t.1 then .ok (k, t.2) else loop S M tol fuel (k + 1) (swapVecs t.2)

/-- `PMINRESSolver::Mult(b, x)` (src/solvers.cpp:429-515). -/
def mult [Field α] [LinearOrder α] (S : Minres α) (M : Op α) (b x : List α) (w : PminresState α) :
    Res (Int × PminresState α) := do
  cassert ((b.length : Int) = S.A.rows)
  cassert ((x.length : Int) = S.A.cols)
  let s ← start S M b x w
  let tol := max (s.beta * S.relTol * S.relTol) (S.absTol * S.absTol)
  loop S M tol S.maxIter.toNat 1 s

end Pminres
end Linalg
