import Verif.Model.Eigen

/-!
# The dense factorisations (src/densematrix.cpp)

LAPACK is a parameter, as in `Verif/Model/Eigen.lean`: what is modelled is how it is called.  A call with an array shorter than
the routine documents is `outOfBounds`, a call with a workspace LAPACK rejects is `threw`.
-/

namespace Linalg
open Cpp

variable {α : Type}

/-- What the LAPACK routines compute, on arrays of the documented length. -/
structure LapackDense (α : Type) where
  /-- workspace query of `dgesvd_` with `jobu = "O"`, `jobvt = "N"`, converted to `int` -/
  gesvdWork : Int → Int → Int
  /-- `dgesvd_` with `jobu = "O"`, `jobvt = "N"`: rows, columns, matrix; the overwritten matrix, `S`, `info` -/
  gesvd : Nat → Nat → List α → List α × List α × Int
  /-- workspace query of `dgeqp3_` -/
  geqp3Work : Int → Int → Int
  /-- `dgeqp3_`: rows, columns, matrix, `jpvt`; the overwritten matrix, `jpvt`, `tau` -/
  geqp3 : Nat → Nat → List α → List Int → List α × List Int × List α
  /-- workspace query of `dorgqr_`: rows, columns, number of reflectors -/
  orgqrWork : Int → Int → Int → Int
  /-- `dorgqr_`: rows, columns, number of reflectors, matrix, `tau`; the overwritten matrix, `info` -/
  orgqr : Nat → Nat → Nat → List α → List α → List α × Int
  /-- `dgetrf_`: rows, columns, matrix; the overwritten matrix, `ipiv` (`info` is overwritten by the next call) -/
  getrf : Nat → Nat → List α → List α × List Int
  /-- workspace query of `dgetri_` -/
  getriWork : Int → Int
  /-- `dgetri_`: size, matrix, `ipiv`; the overwritten matrix, `info` -/
  getri : Nat → List α → List Int → List α × Int

namespace Dense

/-- The second call of `dgesvd_` (src/densematrix.cpp:611-612): `A` has `m * n` elements, `S` `min(m, n)`, `work` `lwork`, which
must be at least `max(1, 3 min(m, n) + max(m, n), 5 min(m, n))`. -/
def callGesvd (L : LapackDense α) (m n : Int) (A S work : List α) (lwork : Int) : Res (List α × List α × Int) := do
  cverify (Max.max 1 (Max.max (3 * Min.min m n + Max.max m n) (5 * Min.min m n)) ≤ lwork)
  need A.length (m * n)
  need S.length (Min.min m n)
  need work.length lwork
  let r := L.gesvd m.toNat n.toNat (A.take (m * n).toNat)
  .ok (overwrite r.1 A, overwrite r.2.1 S, r.2.2)

/-- `SVD()` (src/densematrix.cpp:576-617): the singular values and the overwritten matrix. -/
def svd [Zero α] (L : LapackDense α) (D : Dense α) : Res (List α × Dense α) := do
  let rows := D.rows
  let cols := D.cols
  let singular ← mkVec (Min.min rows cols) 0
  if rows = 0 ∨ cols = 0 then .ok (singular, D)
  else
    let lwork := L.gesvdWork rows cols
    let work ← mkVec lwork 0
    let r ← callGesvd L rows cols D.data singular work lwork
    cassert (r.2.2 = 0)
    .ok (r.2.1, { D with data := r.1 })

/-- The second call of `dgeqp3_` (src/densematrix.cpp:662): `A` has `m * n` elements, `jpvt` `n`, `tau` `min(m, n)`, `work`
`lwork`, which must be at least `3 n + 1`. -/
def callGeqp3 (L : LapackDense α) (m n : Int) (A : List α) (jpvt : List Int) (tau work : List α) (lwork : Int) :
    Res (List α × List Int × List α) := do
  cverify (3 * n + 1 ≤ lwork)
  need A.length (m * n)
  need jpvt.length n
  need tau.length (Min.min m n)
  need work.length lwork
  let r := L.geqp3 m.toNat n.toNat (A.take (m * n).toNat) (jpvt.take n.toNat)
  .ok (overwrite r.1 A, overwrite r.2.1 jpvt, overwrite r.2.2 tau)

/-- The second call of `dorgqr_` (src/densematrix.cpp:672): `m ≥ n ≥ k ≥ 0`; `A` has `m * n` elements, `tau` `k`, `work` `lwork`,
which must be at least `max(1, n)`. -/
def callOrgqr (L : LapackDense α) (m n k : Int) (A tau work : List α) (lwork : Int) : Res (List α × Int) := do
  cverify (n ≤ m ∧ 0 ≤ k ∧ k ≤ n)
  cverify (Max.max 1 n ≤ lwork)
  need A.length (m * n)
  need tau.length k
  need work.length lwork
  let r := L.orgqr m.toNat n.toNat k.toNat (A.take (m * n).toNat) (tau.take k.toNat)
  .ok (overwrite r.1 A, r.2)

/-- `QR()` (src/densematrix.cpp:633-675). -/
def qr [Zero α] (L : LapackDense α) (D : Dense α) : Res (Dense α) := do
  let rows := D.rows
  let cols := D.cols
  if rows = 0 ∨ cols = 0 then .ok D
  else
    let mn := Min.min rows cols
    let lwork := L.geqp3Work rows cols
    let jpvt ← mkVec mn (0 : Int)
    let tau ← mkVec mn 0
    let work ← mkVec lwork 0
    let r ← callGeqp3 L rows cols D.data jpvt tau work lwork
    let lwork := L.orgqrWork rows cols mn
    let work := resize work lwork.toNat 0
    let q ← callOrgqr L rows cols mn r.1 r.2.2 work lwork
    cassert (q.2 = 0)
    .ok { D with data := q.1 }

/-- The call of `dgetrf_` (src/densematrix.cpp:705): `A` has `m * n` elements, `ipiv` `min(m, n)`. -/
def callGetrf (L : LapackDense α) (m n : Int) (A : List α) (ipiv : List Int) : Res (List α × List Int) := do
  need A.length (m * n)
  need ipiv.length (Min.min m n)
  let r := L.getrf m.toNat n.toNat (A.take (m * n).toNat)
  .ok (overwrite r.1 A, overwrite r.2 ipiv)

/-- The second call of `dgetri_` (src/densematrix.cpp:716): `A` has `n * n` elements, `ipiv` `n`, `work` `lwork`, which must be at
least `max(1, n)`. -/
def callGetri (L : LapackDense α) (n : Int) (A : List α) (ipiv : List Int) (work : List α) (lwork : Int) : Res (List α × Int) := do
  cverify (Max.max 1 n ≤ lwork)
  need A.length (n * n)
  need ipiv.length n
  need work.length lwork
  let r := L.getri n.toNat (A.take (n * n).toNat) (ipiv.take n.toNat)
  .ok (overwrite r.1 A, r.2)

/-- `Invert()` (src/densematrix.cpp:683-719). -/
def invert [Zero α] (L : LapackDense α) (D : Dense α) : Res (Dense α) := do
  let rows := D.rows
  let cols := D.cols
  cassert (rows = cols)
  if rows = 0 ∨ cols = 0 then .ok D
  else
    let ipiv ← mkVec (Min.min rows cols) (0 : Int)
    let f ← callGetrf L rows cols D.data ipiv
    let lwork := L.getriWork cols
    let work ← mkVec lwork 0
    let r ← callGetri L cols f.1 f.2 work lwork
    cassert (r.2 = 0)
    .ok { D with data := r.1 }

/-- `SVD(DenseMatrix& U) const` (src/densematrix.cpp:569-574): the copy is the second component, this matrix the third. -/
def svdInto [Zero α] (L : LapackDense α) (D _U : Dense α) : Res (List α × Dense α × Dense α) := do
  let r ← svd L D
  .ok (r.1, r.2, D)

/-- `QR(DenseMatrix& Q) const` (src/densematrix.cpp:627-631): the copy and this matrix. -/
def qrInto [Zero α] (L : LapackDense α) (D _Q : Dense α) : Res (Dense α × Dense α) := do
  let q ← qr L D
  .ok (q, D)

/-- `Invert(DenseMatrix& inv) const` (src/densematrix.cpp:677-681): the copy and this matrix. -/
def invertInto [Zero α] (L : LapackDense α) (D _inv : Dense α) : Res (Dense α × Dense α) := do
  let r ← invert L D
  .ok (r, D)

end Dense
end Linalg
