import Verif.Model.SparseMain
import Verif.Model.Operator
import Verif.Model.Access

/-!
# The programs of the basic examples (examples/dense/dense_basics.cpp, examples/vector/vector_ops.cpp)

What is printed is the result; the layout of the text is left out (it is the subject of `Model/Print.lean`).
-/

namespace Linalg
open Cpp Io

namespace Example
variable {α : Type}

/-- What `constructors` shows (examples/dense/dense_basics.cpp:3-15). -/
def constructors [Zero α] [Add α] (F : Fmt α) (file : Option Text) : Res (List (Dense α)) := do
  let d22 ← Dense.square 2
  let d23 ← Dense.zeros 2 3
  let fromFile ← parseDense F file
  .ok [Dense.empty, d22, d23, fromFile]

/-- The matrix of `matvec_ops` and `matmat_ops` (examples/dense/dense_basics.cpp:19-24, 76-79). -/
def basicMat [Zero α] [One α] [OfNat α 2] [OfNat α 3] [OfNat α 4] : Res (Dense α) := do
  let m ← Dense.zeros 4 2
  let m ← m.put 0 0 1
  let m ← m.put 0 1 2
  let m ← m.put 2 0 3
  m.put 3 1 4

/-- What `matvec_ops` shows: `m`, its transpose, `m * b_2`, `m^T * b_4` (examples/dense/dense_basics.cpp:17-43). -/
def matvecOps [Field α] : Res ((Dense α × Dense α) × (List α × List α)) := do
  let m ← basicMat
  let mT ← m.transpose
  let b2 ← mkVec 2 (0 : α)
  let b2 ← vwr b2 0 (-1)
  let b2 ← vwr b2 1 3
  let b4 ← mkVec 4 (0 : α)
  let b4 ← vwr b4 0 (-(3 / 2))
  let b4 ← vwr b4 1 (5 / 2)
  let b4 ← vwr b4 2 (-(3 / 2))
  let b4 ← vwr b4 3 (7 / 2)
  let mb ← m.multVec b2
  let mTb ← m.multATVec b4
  .ok ((m, mT), (mb, mTb))

/-- What `access_ops` shows (examples/dense/dense_basics.cpp:45-72): the two matrices, the two elements, the sum, the difference, the matrix shown as
`10.0 * d0`, and that matrix divided by 4. -/
def accessOps [Field α] [DecidableEq α] (F : Fmt α) (file0 file1 : Option Text) : Res ((Dense α × Dense α) × (α × α) × List (Dense α)) := do
  let d0 ← parseDense F file0
  let d1 ← parseDense F file1
  let a ← d0.get 1 2
  let b ← d1.get 2 2
  let plus ← d0.addAssign d1
  let sub ← d0.subAssign d1
  let x10 := d1.mulScalar 10
  let x ← x10.divScalar 4
  .ok ((d0, d1), (a, b), [plus, sub, x10, x])

/-- What `matmat_ops` shows: `m`, `m^T`, `m^T m`, `m m^T` (examples/dense/dense_basics.cpp:74-92). -/
def matmatOps [Field α] : Res (List (Dense α)) := do
  let m ← basicMat
  let mT ← m.transpose
  let mTm ← mT.multD m
  let mmT ← m.multD mT
  .ok [m, mT, mTm, mmT]

/-- `main` (examples/dense/dense_basics.cpp:94-101): the four functions in turn, the first failure ending the program. -/
def denseMain [Field α] [DecidableEq α] (F : Fmt α) (mat2 mat4 mat42 : Option Text) : Res Unit := do
  let _ ← constructors F mat2
  let _ ← accessOps F mat4 mat42
  let _ ← (matvecOps : Res ((Dense α × Dense α) × (List α × List α)))
  let _ ← (matmatOps : Res (List (Dense α)))
  .ok ()

/-- What `main` of the vector example shows (examples/vector/vector_ops.cpp:3-48): the vectors of sizes 0 and 4 and the ones; the first two elements of
`zeros`; the vector from the file; the inner product, the norm and the second inner product; `twos normalized`, `1 + 2`, `2 + 2`. -/
def vectorMain [Field α] [DecidableEq α] (F : Fmt α) (sqrt : α → α) (file : Option Text) :
    Res ((List α × List α × List α) × (α × α) × List α × (α × α × α) × (List α × List α × List α)) := do
  let v2 ← mkVec 4 (0 : α)
  let zeros ← mkVec 6 (0 : α)
  let ones ← mkVec 6 (1 : α)
  let twos ← mkVec 6 (2 : α)
  let zeros ← vwr zeros 0 2
  let z ← vrd zeros 1
  let zeros ← vwr zeros 1 (z * 8)
  let z0 ← vrd zeros 0
  let z1 ← vrd zeros 1
  let fromFile ← readText F file
  let ip ← Vec.inner twos ones
  let norm ← Vec.l2Norm sqrt twos
  let normalized ← Vec.overScalar twos norm
  let ip2 ← Vec.inner twos twos
  let threes ← Vec.plus twos ones
  let fours ← Vec.plus twos twos
  .ok (([], v2, ones), (z0, z1), fromFile, (ip, norm, ip2), (normalized, threes, fours))

end Example
end Linalg
