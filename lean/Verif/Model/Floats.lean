import Verif.Model.Solvers
import Verif.Model.Lil
import Verif.Model.Coo
import Verif.Spec.Floats

/-!
# The functions that compare or divide, for floating-point numbers

The other files leave out NaN and infinities: there `|a - b| > tol` and `|a - b| ≤ tol` are opposites and a division by zero is the outcome `divZero`.
Here the functions that compare scalars or divide by them are modelled once more, with the operations of a floating-point type (`Spec/Floats.lean`),
where a comparison with NaN is false and `0 / 0` is NaN.
-/

namespace Linalg
open Cpp Floats

variable {F : Type} [Floats F]

namespace Flt

/-- `operator==` (include/vectorview.hpp:653-673); `tol` is `1e-12`. -/
def vecEq (tol : F) (x y : List F) : Res Bool :=
  if x.length ≠ y.length then .ok false
  else do
    let bad ← forUp 0 (x.length : Int) false (fun i bad =>
      if bad then .ok true
      else do
        let a ← vrd x i
        let b ← vrd y i
        .ok (lt tol (abs (a - b))))
    .ok (!bad)

/-- `DenseMatrix::operator==` (src/densematrix.cpp:346-369); `tol` is `1e-12`. -/
def denseEq (tol : F) (D other : Dense F) : Res Bool := do
  if other.rows ≠ D.rows ∨ other.cols ≠ D.cols then .ok false
  else
    forUp 0 D.cols true (fun j good =>
      forUp 0 D.rows good (fun i good => do
        if good then
          let a ← D.get i j
          let b ← other.get i j
          .ok (!lt tol (abs (a - b)))
        else .ok false))

/-- `Max(vect)` (include/vectorview.hpp:696-702). -/
def max (x : List F) : Res F :=
  match x with
  | [] => .error .assertFail
  | a :: l => .ok (Vec.maxElement lt a l)

/-- `Min(vect)` (include/vectorview.hpp:708-714). -/
def min (x : List F) : Res F :=
  match x with
  | [] => .error .assertFail
  | a :: l => .ok (Vec.minElement lt a l)

/-- `AbsMax(vect)` (include/vectorview.hpp:679-690). -/
def absMax (x : List F) : Res F :=
  match x with
  | [] => .error .assertFail
  | a :: l => .ok (abs (Vec.maxElement (fun a b => lt (abs a) (abs b)) a l))

/-- `AbsMin(vect)` (include/vectorview.hpp:720-731). -/
def absMin (x : List F) : Res F :=
  match x with
  | [] => .error .assertFail
  | a :: l => .ok (abs (Vec.minElement (fun a b => lt (abs a) (abs b)) a l))

/-- `vect /= val` (include/vectorview.hpp:605-616). -/
def divVec (v : List F) (val : F) : Res (List F) := do
  cassert (eq val 0 = false)
  .ok (v.map (fun u => u / val))

/-- `std::max(a, b)`. -/
def stdMax (a b : F) : F := if lt a b then b else a

/-- `SparseMatrix::EliminateZeros(T tolerance)` (include/sparsematrix.hpp:1472-1500). -/
def sparseEliminateZeros (A : Csr F) (tolerance : F) : Res (Csr F) := do
  let st ← forUp 0 A.rows (([0] : List Int), ([] : List Int), ([] : List F)) (fun i st => do
    let e ← A.forRow i (st.2.1, st.2.2) (fun j e => do
      let d ← rd A.data j
      if lt tolerance (abs d) = true then
        let c ← rd A.indices j
        .ok (e.1 ++ [c], e.2 ++ [d])
      else .ok e)
    .ok (st.1 ++ [(e.1.length : Int)], e.1, e.2))
  .ok { A with indptr := st.1, indices := st.2.1, data := st.2.2 }

/-- `CooMatrix::EliminateZeros(double tolerance)` (include/coomatrix.hpp:689-700). -/
def cooEliminateZeros (C : Coo F) (tolerance : F) : Coo F :=
  { C with entries := C.entries.filter (fun e => !lt (abs e.2.2) tolerance) }

/-- `LilMatrix::EliminateZeros(double tolerance)` (include/lilmatrix.hpp:481-493). -/
def lilEliminateZeros (L : Lil F) (tolerance : F) : Lil F :=
  { L with entries := L.entries.map (fun row => row.filter (fun e => !lt (abs e.2) tolerance)) }

/-- `CooMatrix::Add(int i, int j, T val)` (include/coomatrix.hpp:325-339), with `assert(val == val); // is finite`. -/
def cooAdd (C : Coo F) (i j : Int) (val : F) : Res (Coo F) := do
  cassert (i ≥ 0)
  cassert (j ≥ 0)
  cassert (eq val val = true)
  if C.sizeSet then
    cassert (i < C.rows)
    cassert (j < C.cols)
  .ok { C with entries := C.entries ++ [(i, j, val)] }

/-- `LilMatrix::Add(int i, int j, T val)` (include/lilmatrix.hpp:258-276). -/
def lilAdd (L : Lil F) (i j : Int) (val : F) : Res (Lil F) := do
  cassert (i ≥ 0)
  cassert (j ≥ 0)
  cassert (eq val val = true)
  let es ← (if L.sizeSet then do
      cassert (i < L.rows)
      cassert (j < L.cols)
      .ok L.entries
    else if i ≥ L.entries.length then .ok (resize L.entries (i + 1).toNat [])
    else .ok L.entries : Res (List (List (Int × F))))
  let row ← rd es i
  let es ← wr es i ((j, val) :: row)
  .ok { L with entries := es }

end Flt

/-! ## The Krylov solvers -/

namespace Pcg

/-- The code before the loop (src/solvers.cpp:152-165). -/
def startF (S : Pcg F) (b : List F) (s : PcgState F) : Res (PcgState F) := do
  let Ap ← S.A.multResize s.x s.Ap
  let r ← Vec.update (fun u v => u - v) b Ap
  let z ← S.precond r s.z
  .ok ⟨s.x, r, z, z, Ap, s.applied + 1⟩

/-- One pass of the loop (src/solvers.cpp:182-220); `true` means `break`, `low` is `-1e12`. -/
def stepF (S : Pcg F) (low tol : F) (s : PcgState F) : Res (Bool × PcgState F) := do
  let Ap ← S.A.multResize s.p s.Ap
  let pAp ← S.dot s.p Ap
  let rz ← S.dot s.r s.z
  let alpha := rz / pAp
  cverify (lt low pAp = true)
  let x ← Vec.update (fun u v => u + alpha * v) s.x s.p
  let denom ← S.dot s.z s.r
  let r ← Vec.update (fun u v => u - alpha * v) s.r Ap
  let z ← S.precond r s.z
  let numer ← S.dot z r
  if lt numer tol then .ok (true, ⟨x, r, s.p, z, Ap, s.applied + 1⟩)
  else do
    let beta := numer / denom
    let p ← Vec.update (fun u v => u + v) (s.p.map (fun u => u * beta)) z
    .ok (false, ⟨x, r, p, z, Ap, s.applied + 1⟩)

/-- `do ... while (++num_iter_ < max_iter_)` (src/solvers.cpp:180-222), as `Pcg.loop`. -/
def loopF (S : Pcg F) (low tol : F) : Nat → Int → PcgState F → Res (Int × PcgState F)
  | 0, k, s => do
    let t ← S.stepF low tol s
    .ok (if t.1 then k else k + 1, t.2)
  | fuel + 1, k, s => do
    let t ← S.stepF low tol s
    if t.1 then .ok (k, t.2) else S.loopF low tol fuel (k + 1) t.2

/-- `PCGSolver::Mult(b, x)` (src/solvers.cpp:145-223). -/
def multF (S : Pcg F) (low : F) (b x : List F) (w : PcgState F) : Res (Int × PcgState F) := do
  cassert ((x.length : Int) = S.A.rows)
  cassert ((b.length : Int) = S.A.rows)
  let s ← S.startF b { w with x := x, applied := 0 }
  let r0 ← S.dot s.z s.r
  let tol := Flt.stdMax (r0 * S.relTol * S.relTol) (S.absTol * S.absTol)
  let now ← S.dot s.z s.r
  if lt now tol then .ok (1, s)
  else S.loopF low tol (S.maxIter - 2).toNat 1 s

end Pcg

namespace Minres

/-- The code before the loop (src/solvers.cpp:291-306). -/
def startF (S : Minres F) (b x : List F) (w : MinresState F) : Res (MinresState F) := do
  let w0 := List.replicate w.w0.length (0 : F)
  let w1 := List.replicate w.w1.length (0 : F)
  let v0 := List.replicate w.v0.length (0 : F)
  let q ← S.A.multResize x w.q
  let v1 ← Vec.update (fun u v => u - v) b q
  let d ← S.dot v1 v1
  let beta := S.sqrt d
  .ok ⟨x, w0, w1, v0, v1, q, beta, beta, 1, 1, 0, 0, 1⟩

/-- One pass of the loop up to the test (src/solvers.cpp:312-356). -/
def stepF (S : Minres F) (tol : F) (s : MinresState F) : Res (Bool × MinresState F) := do
  let size := S.A.cols
  let v1 ← Flt.divVec s.v1 s.beta
  let q ← S.A.multResize v1 s.q
  let alpha ← S.dot v1 q
  let v0 ← Vec.update3 size (fun v0 q v1 => q - s.beta * v0 - alpha * v1) s.v0 q v1
  let delta := s.gamma2 * alpha - s.gamma * s.sigma2 * s.beta
  let rho3 := s.sigma * s.beta
  let rho2 := s.sigma2 * alpha + s.gamma * s.gamma2 * s.beta
  let d ← S.dot v0 v0
  let beta := S.sqrt d
  let rho1 := S.sqrt (delta * delta + beta * beta)
  let w0 ← Vec.update3 size (fun w0 v1 w1 => 1 / rho1 * v1 - rho3 / rho1 * w0 - rho2 / rho1 * w1) s.w0 v1 s.w1
  let gamma2 := delta / rho1
  let x ← Vec.update2 size (fun x w0 => x + gamma2 * s.eta * w0) s.x w0
  let sigma2 := beta / rho1
  let eta := -sigma2 * s.eta
  .ok (lt (abs eta) tol, ⟨x, w0, s.w1, v0, v1, q, beta, eta, s.gamma2, gamma2, s.sigma2, sigma2, s.applied + 1⟩)

/-- The loop (src/solvers.cpp:310-360), as `Minres.loop`. -/
def loopF (S : Minres F) (tol : F) : Nat → Int → MinresState F → Res (Int × MinresState F)
  | 0, k, s => .ok (k, s)
  | fuel + 1, k, s => do
    let t ← S.stepF tol s
    if t.1 then .ok (k, t.2) else S.loopF tol fuel (k + 1) (swapVecs t.2)

/-- `MINRESSolver::Mult(b, x)` (src/solvers.cpp:283-361). -/
def multF (S : Minres F) (b x : List F) (w : MinresState F) : Res (Int × MinresState F) := do
  cassert ((x.length : Int) = S.A.rows)
  cassert ((b.length : Int) = S.A.rows)
  let s ← S.startF b x w
  let tol := Flt.stdMax (s.beta * S.relTol * S.relTol) (S.absTol * S.absTol)
  S.loopF tol S.maxIter.toNat 1 s

end Minres

namespace Pminres

/-- The code before the loop (src/solvers.cpp:439-456). -/
def startF (S : Minres F) (M : Op F) (b x : List F) (w : PminresState F) : Res (PminresState F) := do
  let w0 := List.replicate w.w0.length (0 : F)
  let w1 := List.replicate w.w1.length (0 : F)
  let v0 := List.replicate w.v0.length (0 : F)
  let q ← S.A.multResize x w.q
  let v1 ← Vec.update (fun u v => u - v) b q
  let u1 ← M.multResize v1 w.u1
  let d ← S.dot u1 v1
  let beta := S.sqrt d
  .ok ⟨x, w0, w1, v0, v1, u1, q, beta, beta, 1, 1, 0, 0, 1⟩

/-- One pass of the loop up to the test (src/solvers.cpp:462-509). -/
def stepF (S : Minres F) (M : Op F) (tol : F) (s : PminresState F) : Res (Bool × PminresState F) := do
  let size := S.A.cols
  let v1 ← Flt.divVec s.v1 s.beta
  let u1 ← Flt.divVec s.u1 s.beta
  let q ← S.A.multResize u1 s.q
  let alpha ← S.dot u1 q
  let v0 ← Vec.update3 size (fun v0 q v1 => q - s.beta * v0 - alpha * v1) s.v0 q v1
  let delta := s.gamma2 * alpha - s.gamma * s.sigma2 * s.beta
  let rho3 := s.sigma * s.beta
  let rho2 := s.sigma2 * alpha + s.gamma * s.gamma2 * s.beta
  let q ← M.multResize v0 q
  let d ← S.dot v0 q
  let beta := S.sqrt d
  let rho1 := S.sqrt (delta * delta + beta * beta)
  let w0 ← Vec.update3 size (fun w0 u1 w1 => 1 / rho1 * u1 - rho3 / rho1 * w0 - rho2 / rho1 * w1) s.w0 u1 s.w1
  let gamma2 := delta / rho1
  let x ← Vec.update2 size (fun x w0 => x + gamma2 * s.eta * w0) s.x w0
  let sigma2 := beta / rho1
  let eta := -sigma2 * s.eta
  .ok (lt (abs eta) tol, ⟨x, w0, s.w1, v0, v1, u1, q, beta, eta, s.gamma2, gamma2, s.sigma2, sigma2, s.applied + 1⟩)

/-- The loop (src/solvers.cpp:460-514). -/
def loopF (S : Minres F) (M : Op F) (tol : F) : Nat → Int → PminresState F → Res (Int × PminresState F)
  | 0, k, s => .ok (k, s)
  | fuel + 1, k, s => do
    let t ← stepF S M tol s
    if t.1 then .ok (k, t.2) else loopF S M tol fuel (k + 1) (swapVecs t.2)

/-- `PMINRESSolver::Mult(b, x)` (src/solvers.cpp:429-515). -/
def multF (S : Minres F) (M : Op F) (b x : List F) (w : PminresState F) : Res (Int × PminresState F) := do
  cassert ((b.length : Int) = S.A.rows)
  cassert ((x.length : Int) = S.A.cols)
  let s ← startF S M b x w
  let tol := Flt.stdMax (s.beta * S.relTol * S.relTol) (S.absTol * S.absTol)
  loopF S M tol S.maxIter.toNat 1 s

end Pminres
end Linalg
