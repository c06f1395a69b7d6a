import Verif.Model.Access
import Verif.Model.Coo
import Verif.Model.Lil
import Verif.Model.Block
import Verif.Model.SolverApi
import Verif.Model.Eigen
import Verif.Model.Util
import Verif.Model.Operator
import Verif.Model.Digits

/-!
# The test program of the library (tests/test_linalg.cpp)

The assertions of the program, and what it prints, as the results of functions; a `double` is a number without rounding.  Random numbers are
parameters.  Left out: the conversions to other scalar types, copies of objects (C91, C101), binary files, text output.
-/

namespace Linalg
open Cpp

namespace LinalgTest

/-- `assert(std::fabs(diff.Sum()) < 1e-8)` for the difference of the two conversions of a coordinate matrix (tests/test_linalg.cpp:443-447, 461-465,
481-485, 507-511, 540-544). -/
def agree (C : Coo ℚ) : Res Unit := do
  let dense ← C.toDense
  let sparse ← C.toSparse
  let d ← sparse.toDense
  let diff ← dense.subAssign d
  let s ← diff.sum
  cassert (|s| < 1 / 10 ^ 8)

/-- `Add` for each of a list of entries. -/
def addEach {α : Type} (C : Coo α) (l : List (Int × Int × α)) : Res (Coo α) := l.foldlM (fun C e => C.add e.1 e.2.1 e.2.2) C

/-- `AddSym` for each of a list of entries. -/
def addSymEach {α : Type} (C : Coo α) (l : List (Int × Int × α)) : Res (Coo α) := l.foldlM (fun C e => C.addSym e.1 e.2.1 e.2.2) C

/-- The entries of three of the tests (tests/test_linalg.cpp:435-441). -/
def cooEntries : List (Int × Int × ℚ) := [(0, 0, 1), (0, 1, 2), (1, 1, 3), (1, 1, 3), (1, 1, 3), (2, 2, 3), (4, 2, 3)]

/-- The part of `test_coo` without random numbers (tests/test_linalg.cpp:392-512, 547-615): the two products, the coordinate matrices without
zeros, and the last two matrices it prints. -/
def cooFixed : Res ((List ℚ × List ℚ) × (Coo ℚ × Coo ℚ) × (Dense ℚ × Dense ℚ)) := do
  let _ ← (Coo.new : Coo ℚ).toSparse
  let _ ← (Coo.new : Coo ℚ).toDense
  let C ← Coo.ofSize 10 10
  let C ← addEach C cooEntries
  agree C
  let C ← addEach Coo.new cooEntries
  agree C
  let C ← Coo.ofSize 10 10
  let C ← addSymEach C cooEntries
  agree C
  let C ← Coo.ofSize 10 10
  let input ← Dense.ofData 3 3 [1, 4, 7, 2, 5, 8, 3, 6, 9]
  let C ← C.addBlock [8, 0, 3] [6, 4, 8] input
  agree C
  let C ← Coo.square 10
  let C ← addEach C (cooEntries ++ [(8, 9, 3)])
  let y ← C.mult (List.replicate 10 1) (List.replicate 10 0)
  let yT ← C.multAT (List.replicate 10 1) y
  let C ← Coo.ofSize 4 4
  let C ← addSymEach C [(0, 0, 1), (0, 1, 0), (0, 2, 2), (0, 3, 3)]
  let C0 := C.eliminateZeros (1 / 10 ^ 15)
  let C1 := C0.eliminateZeros (5 / 2)
  let C ← Coo.square 10
  let C ← C.addZip [1, 8] [3, 5] [-1, -1]
  let C ← C.addZip [3, 5] [1, 8] [1, 1]
  let D0 ← C.toDense
  let C ← C.addZipScaled [1, 8] [3, 5] 2 [-1, -1]
  let C ← C.addZipScaled [3, 5] [1, 8] 5 [1, 1]
  let D1 ← C.toDense
  .ok ((y, yT), (C0, C1), (D0, D1))

/-- The larger coordinate matrix of `test_coo` (tests/test_linalg.cpp:518-545), with the entries drawn. -/
def cooRandom (size : Int) (drawn : List (Int × Int × ℚ)) : Res Unit := do
  let C ← Coo.square size
  let C ← addEach C drawn
  agree C

/-- The first matrix of `test_sparse` (tests/test_linalg.cpp:97-125). -/
def matA : Res (Csr ℚ) := Csr.ofArrays [0, 2, 3, 5] [0, 1, 0, 1, 2] [3 / 2, 5 / 2, 7 / 2, 9 / 2, 11 / 2] 3 3

/-- Before that (tests/test_linalg.cpp:73-95): the product with an empty matrix, and a diagonal matrix. -/
def sparseEmpty : Res (Csr ℚ) := do
  let A2 ← Csr.square 10
  let y ← A2.multVec (List.replicate 10 (1 : ℚ))
  let lo ← Vec.absMin y
  cassert (lo = 0)
  let hi ← Vec.absMax y
  cassert (hi = 0)
  .ok (Csr.ofDiag [3, 3, 3])

/-- The products of `test_sparse` that are printed beside each other (tests/test_linalg.cpp:172-178, 204-247): the transpose in three ways, the
product with its transpose in two, the product with itself in two. -/
def sparsePairs : Res ((Csr ℚ × Dense ℚ × Dense ℚ) × (Dense ℚ × Dense ℚ) × (Csr ℚ × Dense ℚ) × (Dense ℚ × Dense ℚ)) := do
  let A ← matA
  let rhs ← Dense.ofData 3 2 [1, 3, 5, 2, 4, 6]
  let AT ← A.transpose
  let ATd ← A.transposeDense
  let ATg ← A.transposeDenseInto Dense.empty
  let ab ← A.multDense rhs
  let abT ← A.multCTDense rhs
  let ba ← A.multATDense rhs
  let baAT ← AT.multDense rhs
  let C ← A.multSparse A
  let A1 ← A.toDense
  let A2 ← A.toDense
  let C2 ← A1.multD A2
  .ok ((AT, ATd, ATg), (ba, baAT), (C, C2), (ab, abT))

/-- The submatrix, the sorting, the scalar operations and the eliminations of `test_sparse` (tests/test_linalg.cpp:250-258, 316-385). -/
def sparseRest (srt : Csr.Sorter) : Res (Csr ℚ × Csr ℚ × List (Csr ℚ) × List (Csr ℚ)) := do
  let A ← matA
  let sub ← A.getSubMatrixMarker [0, 2] [0, 2] [-1, -1, -1]
  let S ← Csr.ofArrays [0, 2, 4] [1, 0, 1, 0] [1, 2, 1, 2] 2 2
  let S ← S.sortIndices srt
  let s1 := A.scale 2
  let s2 ← s1.divScale 4
  let s3 ← s2.fillVal (-1)
  let e1 ← A.eliminateColMarker [false, true, false]
  let e2 ← A.eliminateRow 2
  let e3 ← A.eliminateRowCol 0
  .ok (sub.1, S, [s1, s2, s3], [e1, e2, e3])

/-- The random submatrix of `test_sparse` (tests/test_linalg.cpp:260-298): the numbers it prints, rows, columns and stored entries. -/
def sparseRandom (size : Int) (drawn : List (Int × Int × ℚ)) (rows cols : List Int) : Res (Int × Int × Int) := do
  let C ← Coo.square size
  let marker ← mkVec size (-1 : Int)
  let C ← addEach C drawn
  let sparse ← C.toSparse
  let sub ← sparse.getSubMatrixMarker rows cols marker
  let _ ← C.toSparse
  .ok (sub.1.rows, sub.1.cols, sub.1.nnz)

/-- The loop of `test_lil` that fills the large matrix (tests/test_linalg.cpp:33-43), with `size` rows. -/
def lilLarge (size : Nat) : Res (Lil ℚ) := do
  let L ← (Lil.square (size : Int) : Res (Lil ℚ))
  (iota size).foldlM (fun L i => (iota size).foldlM (fun L j => if j % 2 = 0 then do
      let L ← L.addSym i j ((i : ℚ) * (j : ℚ))
      L.addSym j i ((i : ℚ) * (j : ℚ))
    else .ok L) L) L

/-- The rest of `test_lil` (tests/test_linalg.cpp:16-31, 45-69): the three matrices as sparse and as dense ones, and `lil_zero` after the
elimination. -/
def lil (srt : List (Int × ℚ) → List (Int × ℚ)) : Res (List (Csr ℚ) × List (Dense ℚ) × Lil ℚ) := do
  let L ← (Lil.ofSize 3 3 : Res (Lil ℚ))
  let L ← L.addSym 0 0 1
  let L ← L.addSym 0 1 2
  let L ← L.addSym 0 2 3
  let L2 ← L.addSym 0 0 1
  let L3 ← L2.addSym 0 0 1
  let s1 ← L.toSparse srt
  let s2 ← L2.toSparse srt
  let s3 ← L3.toSparse srt
  let d1 ← s1.2.toDense
  let d2 ← s2.2.toDense
  let d3 ← s3.2.toDense
  let Z ← Lil.square 100
  let Z ← Z.add 2 2 (1 / 10 ^ 8)
  let Z ← Z.add 2 1 (1 / 10 ^ 5)
  .ok ([s1.1, s2.1, s3.1], [d1, d2, d3], Z.eliminateZeros (1 / 10 ^ 6))

/-- The products and the changes of rows and columns in `test_dense` (tests/test_linalg.cpp:628-757): `d2 * x`, the four products, `d2` after each of
the six changes. -/
def dense : Res (List ℚ × List (Dense ℚ) × List (Dense ℚ)) := do
  let d2 ← (Dense.square 5 : Res (Dense ℚ))
  let d2 ← [(0, 0, 0), (1, 1, 1), (0, 1, 1), (1, 0, 1), (2, 2, 2), (2, 0, 2), (0, 2, 2), (3, 3, 3), (0, 3, 3), (3, 0, 3), (4, 4, 4), (4, 0, 4), (0, 4, 4)].foldlM
    (fun (D : Dense ℚ) (e : Int × Int × ℚ) => D.put e.1 e.2.1 e.2.2) d2
  let y ← d2.mult (List.replicate 5 1) (List.replicate 5 0)
  let _ ← d2.multAT y (List.replicate 5 1)
  let A ← Dense.ofData 3 2 [1, 0, 3, 0, 2, 0]
  let B ← Dense.ofData 2 4 [1, 0, 0, 3, 2, 0, 0, 4]
  let C ← A.multD B
  let D ← A.multATD C
  let E ← C.multBTD B
  let F ← B.multABTD A
  let F2 := F.mulScalar 2
  let F ← F2.divScalar 2
  let G := F.mulScalar 5
  let v3 ← d2.multVec (List.replicate 5 1)
  let row1 ← d2.getRowNew 1
  let col1 ← d2.getColNew 1
  let view ← d2.getColView 1
  let data ← view.put d2.data 0 (-20)
  let a1 : Dense ℚ := { d2 with data := data }
  let a2 ← a1.setRowVec 1 (row1.map (fun _ => 5))
  let a2 ← a2.setColVec 1 (col1.map (fun _ => 5))
  let rows ← a2.getRowRange 1 3
  let cols ← a2.getColRange 1 3
  let a3 ← a2.setRowBlock 3 (rows.fill (-1 / 2))
  let a4 ← a3.setColBlock 3 (cols.fill (-19 / 2))
  let sub ← a4.getSubMatrix 1 1 4 4
  let a5 ← a4.setSubMatrixRange 2 2 5 5 (sub.fill 100)
  let a6 ← a5.transpose
  .ok (v3, [C, D, E, F, G], [a1, a2, a3, a4, a5, a6])

/-- The products of `test_operator` (tests/test_linalg.cpp:991-1040), for vectors `Randomize` made. -/
def operator (x : List ℚ) : Res (List (List ℚ) × List (List ℚ)) := do
  let C ← Coo.ofSize 3 3
  let C ← addEach C [(0, 0, 1), (0, 1, -2), (1, 1, 2), (1, 0, -3), (2, 2, 4)]
  let S ← C.toSparse
  let D ← C.toDense
  let z : List ℚ := [0, 0, 0]
  let a ← C.mult x z
  let b ← D.mult x z
  let c ← S.mult x z
  let aT ← C.multAT x z
  let bT ← D.multAT x z
  let cT ← S.multAT x z
  .ok ([a, b, c], [aT, bT, cT])

variable {α : Type}

/-- The matrix of `test_solvers` (tests/test_linalg.cpp:1044-1056). -/
def solverMatrix [Field α] : Res (Coo α × Csr α) := do
  let C ← (Coo.ofSize 5 5 : Res (Coo α))
  let C ← addSymEach C [(0, 0, 2), (0, 1, -1), (1, 1, 2), (1, 2, -1), (2, 2, 2), (2, 3, -1), (3, 3, 2), (3, 4, -1), (4, 4, 2)]
  let A ← C.toSparse
  .ok (C, A)

/-- A sparse and a coordinate matrix as an operator. -/
def opOf [Zero α] [Add α] [Mul α] (A : Csr α) : Op α := ⟨A.rows, A.cols, A.mult, A.multAT⟩
def opOfCoo [Zero α] [Add α] [Mul α] (C : Coo α) : Op α := ⟨C.rows, C.cols, C.mult, C.multAT⟩

/-- The error printed after a solve, from what was solved for (tests/test_linalg.cpp:1069-1071, 1088-1090, 1095-1097, 1102-1104). -/
def solveError [Field α] (sqrt : α → α) (A : Csr α) (b x : List α) : Res α := do
  let Ax ← A.multVec x
  let res ← Vec.minus b Ax
  Vec.l2Norm sqrt res

/-- `test_solvers` (tests/test_linalg.cpp:1042-1110) with the iteration limit as a parameter; `rand k` is the start of the solve number `k`.  The
result of CG for the coordinate matrix, and the errors of CG, PCG, MINRES and PMINRES. -/
def solvers [Field α] [LinearOrder α] (sqrt : α → α) (maxIter : Int) (rand : Nat → Int → α) : Res (List α × List α) := do
  let m ← (solverMatrix : Res (Coo α × Csr α))
  let A := opOf m.2
  let b ← mkVec m.2.cols (1 : α)
  let rel : α := 1 / 10 ^ 12
  let abs : α := 1 / 10 ^ 16
  let x ← pcgRandom A none b (rand 0) maxIter rel abs
  let xCoo ← pcgRandom (opOfCoo m.1) none b (rand 1) maxIter rel abs
  let e ← solveError sqrt m.2 b x
  let M := opOf (Csr.ofDiag (List.replicate 5 (1 / 2 : α)))
  let px ← pcgRandom A (some M) b (rand 2) maxIter rel abs
  let pe ← solveError sqrt m.2 b px
  let mx ← minresRandom sqrt A b (rand 3) maxIter rel abs
  let me ← solveError sqrt m.2 b mx
  let pmx ← pminresRandom sqrt A M b (rand 4) maxIter rel abs
  let pme ← solveError sqrt m.2 b pmx
  .ok (xCoo, [e, pe, me, pme])

/-- `test_blockmatrix` (tests/test_linalg.cpp:1112-1173), for the vectors `Randomize` made: the combined matrix, the two products, and the two inner
products it prints. -/
def blockMatrix (x y x2 y2 : List ℚ) : Res (Csr ℚ × (List ℚ × List ℚ) × (ℚ × ℚ)) := do
  let A2 ← (BlockMat.new [0, 2, 4] [0, 2, 4] : Res (BlockMat ℚ))
  let C ← Coo.ofSize 2 2
  let C ← addEach C [(0, 0, 1), (1, 1, 2)]
  let block ← C.toSparse
  let A2 ← A2.setBlock 0 0 block
  let A2 ← A2.setBlock 0 1 block
  let A2 ← A2.setBlock 1 0 block
  let A2 ← A2.setBlock 1 1 block
  let all ← A2.combine
  let u ← A2.mult x y
  let v ← A2.multAT x u
  let Ax ← A2.mult x2 [0, 0, 0, 0]
  let Ay ← A2.mult y2 [0, 0, 0, 0]
  let yAx ← Vec.inner y2 Ax
  let xAy ← Vec.inner x2 Ay
  .ok (all, (u, v), (yAx, xAy))

/-- The `y` printed by `test_blockoperator` (tests/test_linalg.cpp:1243-1299). -/
def blockOperator : Res (List (List ℚ)) := do
  let C ← Coo.ofSize 2 2
  let C ← addEach C [(0, 0, (1 : ℚ)), (1, 1, 1)]
  let S ← C.toSparse
  let D ← C.toDense
  let s := opOf S
  let d : Op ℚ := ⟨D.rows, D.cols, D.mult, D.multAT⟩
  let c := opOfCoo C
  let x : List ℚ := [1, 1, 1, 1]
  let y : List ℚ := [0, 0, 0, 0]
  let off : List Int := [0, 2, 4]
  let b0 ← BlockOp.new off off
  let y0 ← b0.mult x y
  let b ← BlockOp.new off off
  let b ← b.setBlock 0 0 s
  let b ← b.setBlock 0 1 d
  let b ← b.setBlock 1 0 d
  let b ← b.setBlock 1 1 c
  let y1 ← b.mult x y0.2
  let y2 ← y1.1.multAT x y1.2
  let b ← BlockOp.new off off
  let b ← b.setBlock 0 0 c
  let b ← b.setBlock 0 1 s
  let b ← b.setBlock 1 1 d
  let y3 ← b.mult x y2.2
  let y4 ← y3.1.multAT x y3.2
  .ok [y0.2, y1.2, y2.2, y3.2, y4.2]

/-- The block vector of `test_blockvector` (tests/test_linalg.cpp:1175-1219), filled with `v` by `Randomize`: each block normalised through its
view, then its first element changed. -/
def blockVector [Field α] [DecidableEq α] (sqrt : α → α) (v : List α) : Res (α × List α × List α) := do
  let off : List Int := [0, 2, 4]
  let v0 ← (⟨0, 4⟩ : View).getBlock off 0
  let v1 ← (⟨0, 4⟩ : View).getBlock off 1
  let e0 ← BlockOp.viewElems v0 v
  let e1 ← BlockOp.viewElems v1 v
  let ip ← Vec.inner e0 e1
  let v ← v0.normalize sqrt v
  let n ← v1.normalize sqrt v
  let v ← v0.put n 0 (-100)
  let v ← v1.put v 0 (-200)
  .ok (ip, n, v)

/-- The assertion of `test_vector` (tests/test_linalg.cpp:768-778). -/
def vector [Field α] [LinearOrder α] (sqrt : α → α) : Res Unit := do
  let v3 ← View.normalize sqrt ⟨0, 5⟩ (List.replicate 5 (3 : α))
  let n ← Vec.l2Norm sqrt v3
  cassert (|n - 1| < 1 / 10 ^ 10)

/-- The rest of `test_vector` (tests/test_linalg.cpp:782-857) over the rational numbers, `nrm` being `v3` after it was normalised: what is printed, in
the order of the text.  First the sizes and values while `v3` is resized, then the comparisons, the scaled vectors, the entry-wise operations, and the
statistics. -/
def vectorRest (nrm : List ℚ) : Res (List (List ℚ) × (Bool × Bool × ℚ × ℚ) × List (List ℚ) × List (List ℚ) × List ℚ) := do
  let copy ← mkVec 5 (3 : ℚ)
  let equal := copy
  let a0 ← Vec.setSize nrm 0 0
  let a1 ← Vec.setSize a0 8 8
  let a2 ← Vec.setSize a1 2 0
  let a3 ← Vec.setSize a2 5 0
  let v3 ← View.fill ⟨0, 5⟩ 3 a3
  let c1 ← Vec.eqTol (1 / 10 ^ 12) copy equal
  let c2 ← Vec.eqTol (1 / 10 ^ 12) copy v3
  let e0 ← vrd v3 0
  let ip ← Vec.inner v3 v3
  let alpha : ℚ := 3
  let beta : ℚ := 51 / 10
  let b1 ← View.scale ⟨0, 5⟩ alpha v3
  let b2 ← View.divScalar ⟨0, 5⟩ beta b1
  let b3 ← Vec.timesScalar b2 alpha
  let b4 ← Vec.timesScalar b2 beta
  let b5 ← Vec.overScalar b2 beta
  let b6 ← Vec.scalarOver beta b2
  let b7 ← View.fill ⟨0, 5⟩ alpha b2
  let b8 ← View.fill ⟨0, 5⟩ beta b7
  let c0 := (iota b8.length).map (fun i => (i : ℚ))
  let c3 ← Vec.update (fun a b => a - 3 / 2 * b) c0 copy
  let c4 ← Vec.update (fun a b => a + 1 / 2 * b) c3 copy
  let c5 ← Vec.update (fun a b => a + alpha * b) c4 copy
  let c6 ← Vec.update (fun a b => a - beta * b) c5 equal
  let m ← View.mulAssign ⟨0, 5⟩ ⟨5, 5⟩ (c6 ++ copy)
  let d1 := m.take 5
  let m ← View.divAssign ⟨0, 5⟩ ⟨5, 5⟩ (d1 ++ copy)
  let d2 := m.take 5
  let d3 ← View.addScalar ⟨0, 5⟩ alpha d2
  let d4 ← View.subScalar ⟨0, 5⟩ beta d3
  let d5 ← View.subAvg ⟨0, 5⟩ d4
  let s1 ← Vec.max d5
  let s2 ← Vec.min d5
  let s3 ← Vec.absMax d5
  let s4 ← Vec.absMin d5
  let s6 ← Vec.mean d5
  let s8 ← Vec.mean copy
  .ok ([a0, a1, a2, v3], (c1, c2, e0, ip), [b1, b2, b3, b3, b4, b4, b5, b6, b7, b8],
    [c0, c3, c4, c6, d1, d2, d3, d4, d5], [s1, s2, s3, s4, Vec.sum d5, s6, Vec.sum copy, s8])

/-- The times printed by `test_timer` (tests/test_linalg.cpp:1301-1337), the clock showing `t0`, ..., `t3`. -/
def timer (t0 t1 t2 t3 : ℚ) : Res (List ℚ × ℚ) := do
  let T := Util.Timer.new false t0
  let T := (((T.click t0).click t1).click t2).click t3
  let a ← T.get 0
  let b ← T.get 1
  let c ← T.get 2
  let s ← T.total
  .ok ([a, b, c], s)

/-- `test_eigensolve` (tests/test_linalg.cpp:1339-1382). -/
def eigensolve [Field α] [LinearOrder α] (L : Lapack α) : Res Unit := do
  let A ← Dense.ofData 3 3 [1, 0, 0, 0, 2, 0, 0, 0, (3 : α)]
  let r ← Eigen.solveNew L Eigen.new A 1 3
  let A2 ← Dense.ofData 3 3 [1, -1, 0, -1, 2, -1, 0, -1, (1 : α)]
  let r2 ← r.1.solveNew L A2 (1 / 2) 3
  cassert (r2.2.2.cols = 2)
  let tol : α := 1 / 10 ^ 15
  let a ← rd r2.2.1 0
  cassert (|a| < tol)
  let b ← rd r2.2.1 1
  cassert (|b - 1| < tol)
  let c ← rd r2.2.1 2
  cassert (|c - 3| < tol)

/-- The format of a `std::string`: up to the next space. -/
def strFmt : Io.Fmt Io.Text := ⟨id, fun t => (some (t.takeWhile (fun c => !Io.isSpace c)), t.dropWhile (fun c => !Io.isSpace c))⟩

/-- The first part of `test_argparser` (tests/test_linalg.cpp:1391-1443). -/
def argsGood : Res Unit := do
  let P ← Util.Args.ofArgv (["test", "--bf", "--bt", "--neg-dt", "-6.0", "--pos-dt", "8.0", "--st", "StringTest"].map String.toList)
  let (b, P) := P.parseBool true "--b".toList "Bool No Change Test".toList
  let (bf, P) := P.parseBool false "--bf".toList "Bool False Test".toList
  let (bt, P) := P.parseBool true "--bt".toList "Bool True Test".toList
  let (nd, P) := P.parse (Io.ratFmt 6) 1000 "--neg-dt".toList "Negative Double Test".toList
  let (pd, P) := P.parse (Io.ratFmt 6) (-1000) "--pos-dt".toList "Posative Double Test".toList
  let (st, P) := @Util.Args.parse _ ⟨([] : Io.Text)⟩ strFmt P "default_string".toList "--st".toList "String Test".toList
  cassert (P.isGood = true)
  cassert (b = true)
  cassert (bf = true)
  cassert (bt = false)
  cassert (nd = -6)
  cassert (pd = 8)
  cassert (st = "StringTest".toList)

/-- The second part (tests/test_linalg.cpp:1445-1487): the parser must not be good. -/
def argsBad : Res Unit := do
  let P ← Util.Args.ofArgv (["test", "--bf", "--bf", "--bt", "--dt", "5"].map String.toList)
  let (b, P) := P.parseBool true "--b".toList "First Bool No Change Test".toList
  let (_, P) := P.parseBool b "--b".toList "Second Bool No Change Test".toList
  let (_, P) := P.parseBool false "--bf".toList "Bool False Test".toList
  let (_, P) := P.parseBool true "--bt".toList "Bool True Test".toList
  let (_, P) := P.parse (Io.ratFmt 6) (-1) "--dt".toList "Double Test".toList
  cassert (P.isGood = false)

/-- The third part (tests/test_linalg.cpp:1489-1521). -/
def argsHelp : Res Unit := do
  let P ← Util.Args.ofArgv (["test", "--bf", "--bt", "--dt", "5", "--help"].map String.toList)
  let (_, P) := P.parseBool true "--b".toList "Bool No Change Test".toList
  let (_, P) := P.parseBool false "--bf".toList "Bool False Test".toList
  let (_, P) := P.parseBool true "--bt".toList "Bool True Test".toList
  let (_, P) := P.parse (Io.ratFmt 6) (-1) "--dt".toList "Double Test".toList
  cassert (P.isGood = false)

/-- The files `test_parser` writes and reads again (tests/test_linalg.cpp:862-961): the vectors, the matrix, and the table. -/
def parser : Res ((List ℚ × List Int) × List (Csr ℚ) × List (Csr ℚ) × Csr Int) := do
  let f1 ← Io.writeText (Io.ratFmt 16) [1, 2, 3] true
  let f2 ← Io.writeText Io.intFmt [1, 2, 3] true
  let C ← Coo.ofSize 3 3
  let C ← addEach C [(0, 0, 1), (1, 1, 2), (1, 2, 2), (2, 0, 3), (2, 2, 3)]
  let S ← C.toSparse
  let f3 ← Io.writeAdjList S false true
  let f4 ← Io.writeCooListDbl S false true
  let f5 ← Io.writeMtxDbl S true
  let v ← Io.readText (Io.ratFmt 16) (some f1)
  let vi ← Io.readText Io.intFmt (some f2)
  let adj ← (Io.readAdjList (some f3) false : Res (Csr ℚ))
  let coo ← Io.readCooListDbl (some f4) false
  let mtx ← Io.readMtxDbl (some f5)
  let adjS ← (Io.readAdjList (some f3) true : Res (Csr ℚ))
  let cooS ← Io.readCooListDbl (some f4) true
  let T ← addEach (Coo.new : Coo Int) [(0, 0, 1), (0, 1, 1), (0, 2, 1), (1, 2, 1), (2, 1, 1), (2, 0, 1)]
  let T ← T.toSparse
  let f6 ← Io.writeTable T true
  let T2 ← (Io.readTable (some f6) : Res (Csr Int))
  .ok ((v, vi), [adj, coo, mtx], [adjS, cooS], T2)

end LinalgTest
end Linalg
