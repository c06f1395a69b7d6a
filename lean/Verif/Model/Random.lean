import Verif.Model.View
import Verif.Model.Examples

/-!
# Random vectors (src/vectorview.cpp, include/vectorview.hpp) and what the examples do with random matrices
(examples/include/ex_utilities.hpp, examples/dense)

The random number engine of the standard library and its distributions are a parameter, `Rng`.  `std::random_device` gives the engine some
state, which is a parameter of each call.  A distribution whose lower limit is above its upper limit is undefined.  What the examples print
and measure is left out.
-/

namespace Linalg
open Cpp

/-- `std::default_random_engine` with states `σ`, and `std::uniform_real_distribution` or `std::uniform_int_distribution`. -/
structure Rng (σ α : Type) where
  /-- the state after `dev.seed(seed)` -/
  seed : Int → σ
  /-- `gen(dev)` for the limits `lo`, `hi`: the number and the next state -/
  draw : α → α → σ → α × σ

namespace Rng
variable {σ α : Type}

/-- The distribution with limits `lo` and `hi` (src/vectorview.cpp:9, 26). -/
def limits [LE α] [DecidableLE α] (lo hi : α) : Res Unit := if lo ≤ hi then .ok () else .error .undefinedBehaviour

/-- `Randomize(vect, lo, hi, seed)` for `double` and for `int` (src/vectorview.cpp:5-37); `dev` is the state `std::random_device` led to. -/
def randomize [LE α] [DecidableLE α] (R : Rng σ α) (dev : σ) (v : View) (lo hi : α) (seed : Int) (m : List α) : Res (List α) := do
  limits lo hi
  let e := if seed ≥ 0 then R.seed seed else dev
  let s ← forUp 0 v.size (m, e) (fun i s => do
    let r := R.draw lo hi s.2
    let m ← wr s.1 (v.off + i) r.1
    .ok (m, r.2))
  .ok s.1

/-- `VectorView<T>::Randomize(int lo = 0, int hi = 1, int seed = -1)` (include/vectorview.hpp:788-792): the limits are converted to `T`. -/
def randomizeMember [LE α] [DecidableLE α] [IntCast α] (R : Rng σ α) (dev : σ) (v : View) (lo hi seed : Int) (m : List α) : Res (List α) :=
  R.randomize dev v (lo : α) (hi : α) seed m

/-- `random_mat(n, m)` (examples/include/ex_utilities.hpp:28-43). -/
def randomMat [Zero α] [One α] [Neg α] [LE α] [DecidableLE α] (R : Rng σ α) (dev : σ) (n m : Int) : Res (Dense α) := do
  let data ← mkVec (n * m) (0 : α)
  let data ← R.randomize dev ⟨0, data.length⟩ (-1) 1 (-1) data
  Dense.ofData n m data

end Rng

namespace Example
variable {σ α : Type}

/-- `test_LU(n)` (examples/dense/dense_lu.cpp:81-101). -/
def testLu [Field α] [LE α] [DecidableLE α] [DecidableEq α] (R : Rng σ α) (dev : σ) (n : Int) : Res (Dense α × Dense α) := do
  let A ← R.randomMat dev n n
  luDecomp A

/-- `test_QR(m, n)` (examples/dense/dense_qr.cpp:65-85). -/
def testQr [Field α] [LE α] [DecidableLE α] [DecidableEq α] (sqrt : α → α) (R : Rng σ α) (dev : σ) (m n : Int) : Res (Dense α × Dense α) := do
  let A ← R.randomMat dev m n
  qrDecomp sqrt A

/-- `for (int i = 10; i < 2000; i *= 1.5)` (examples/dense/dense_lu.cpp:128, examples/dense/dense_qr.cpp:89): the sizes, from `i` on.  The first
argument bounds the number of passes; `i` grows in each, so 2000 always suffice. -/
def sizesFrom : Nat → Int → List Int
  | 0, _ => []
  | k + 1, i => if i < 2000 then i :: sizesFrom k (i * 3 / 2) else []

/-- `time_LU()` (examples/dense/dense_lu.cpp:126-136); `dev` is the state of the random engine for each size. -/
def timeLu [Field α] [LE α] [DecidableLE α] [DecidableEq α] (R : Rng σ α) (dev : Int → σ) : Res Unit :=
  (sizesFrom 2000 10).forM (fun i => do
    let _ ← testLu R (dev i) i
    .ok ())

/-- `time_QR()` (examples/dense/dense_qr.cpp:87-100). -/
def timeQr [Field α] [LE α] [DecidableLE α] [DecidableEq α] (sqrt : α → α) (R : Rng σ α) (dev : Int → σ) : Res Unit :=
  (sizesFrom 2000 10).forM (fun i => do
    let _ ← testQr sqrt R (dev i) i (i * 3 / 2)
    .ok ())

/-- What `LU()` shows: `A`, `L`, `U`, `L U`, `b`, `x`, `A x` (examples/dense/dense_lu.cpp:103-124), for the matrix that was read. -/
def lu [Field α] [DecidableEq α] (A : Dense α) : Res (List (Dense α) × List (List α)) := do
  let (L, U) ← luDecomp A
  let LU ← L.multD U
  let b ← mkVec A.cols (1 : α)
  let x ← solveLu L U b
  let Ax ← A.multVec x
  .ok ([A, L, U, LU], [b, x, Ax])

/-- What `QR()` shows: `A`, `Q`, `R`, `Q R`, `Q^T Q`, `b`, `x`, `A x` (examples/dense/dense_qr.cpp:102-133). -/
def qr [Field α] [DecidableEq α] (sqrt : α → α) : Res (List (Dense α) × List (List α)) := do
  let A ← Dense.zeros 3 2
  let A ← A.put 0 0 3
  let A ← A.put 0 1 (-6)
  let A ← A.put 1 0 4
  let A ← A.put 1 1 (-8)
  let A ← A.put 2 1 1
  let (Q, R) ← qrDecomp sqrt A
  let QR ← Q.multD R
  let QT ← Q.transpose
  let QTQ ← QT.multD Q
  let b ← mkVec A.rows (1 : α)
  let b ← vwr b 0 (-1)
  let b ← vwr b 1 7
  let b ← vwr b 2 2
  let x ← solveQr Q R b
  let Ax ← A.multVec x
  .ok ([A, Q, R, QR, QTQ], [b, x, Ax])

end Example

/-- The engine of one implementation (libstdc++: `std::minstd_rand0`, and `std::generate_canonical` for 53 bits, which takes two numbers), in exact
arithmetic: the state is the last number. -/
def Rng.minstd : Rng Nat Rat where
  seed s := if s % 2147483647 = 0 then 1 else (s % 2147483647).toNat
  draw lo hi s :=
    let a := 16807 * s % 2147483647
    let b := 16807 * a % 2147483647
    (lo + (hi - lo) * (((a : Rat) - 1 + ((b : Rat) - 1) * 2147483646) / (2147483646 * 2147483646)), b)

end Linalg
