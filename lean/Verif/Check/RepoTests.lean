import Verif.Props.SolverApi
import Verif.Props.Block
import Verif.Props.Lil
import Verif.Props.Mixed
import Verif.Props.PrintArgs

/-!
# The test program of the project, run in the model (tests/test_linalg.cpp)

No properties: these runs check the model against what the project's own tests assert, or say in a comment.  Numbers that the
tests write as `double` are rational here; a test of `fabs(x) < 1e-8` is a test of the exact value.  Random vectors are replaced by
fixed ones.  `test_dense` and the printing of the others assert nothing.
-/

namespace Linalg.RepoTests
open Cpp Linalg Util Io

/-- Adding entries one after the other. -/
def addAll {α : Type} (C : Coo α) (es : List (Int × Int × α)) : Res (Coo α) := es.foldlM (fun C e => C.add e.1 e.2.1 e.2.2) C

/-- Adding entries and their mirror images. -/
def addSyms {α : Type} (C : Coo α) (es : List (Int × Int × α)) : Res (Coo α) := es.foldlM (fun C e => C.addSym e.1 e.2.1 e.2.2) C

/-- `(coo.ToDense() - coo.ToSparse().ToDense()).Sum()` (448-450, 463-465, 482-484, 507-510). -/
def gap (C : Coo Rat) : Res Rat := do
  let dense ← C.toDense
  let sparse ← C.toSparse
  let sd ← sparse.toDense
  let diff ← dense.subAssign sd
  diff.sum

/-! ## test_coo -/

/-- The entries of the first tests. -/
def someEntries : List (Int × Int × Rat) := [(0, 0, 1), (0, 1, 2), (1, 1, 3), (1, 1, 3), (1, 1, 3), (2, 2, 3), (4, 2, 3)]

/-- 435-451. -/
example : (do let C ← Coo.ofSize 10 10; let C ← addAll C someEntries; gap C) = .ok 0 := by decide +kernel

/-- 454-466. -/
example : (do let C ← addAll Coo.new someEntries; gap C) = .ok 0 := by decide +kernel

/-- The size found in 454-466, and the entry that was added three times. -/
example : (do let C ← addAll Coo.new someEntries; let D ← C.toDense; let x ← D.get 1 1; .ok (D.rows, D.cols, x) : Res (Int × Int × Rat)) =
    .ok (5, 3, 9) := by decide +kernel

/-- 469-485. -/
example : (do let C ← Coo.ofSize 10 10; let C ← addSyms C someEntries; gap C) = .ok 0 := by decide +kernel

/-- 487-515. -/
example : (do
    let C ← Coo.ofSize 10 10
    let input : Dense Rat := ⟨3, 3, [1, 4, 7, 2, 5, 8, 3, 6, 9]⟩
    let C ← C.addBlock [8, 0, 3] [6, 4, 8] input
    let g ← gap C
    let D ← C.toDense
    let a ← D.get 8 4
    let b ← D.get 0 8
    .ok (g, a, b)) = .ok (0, 2, 6) := by decide +kernel

/-- 398-406: the empty matrix has one row and one column. -/
example : (do let A ← (Coo.new : Coo Int).toSparse; let D ← (Coo.new : Coo Int).toDense; .ok (A, D) : Res (Csr Int × Dense Int)) =
    .ok (⟨1, 1, [0, 0], [], []⟩, ⟨1, 1, [0]⟩) := by decide +kernel

/-- 543-571: products with vectors of ones are row and column sums. -/
example : (do
    let C ← Coo.ofSize 10 10
    let C ← addAll C (someEntries ++ [(8, 9, 3)])
    let y ← C.mult (List.replicate 10 1) (List.replicate 10 0)
    let z ← C.multAT (List.replicate 10 1) y
    .ok (y, z) : Res (List Rat × List Rat)) =
    .ok ([3, 9, 3, 0, 3, 0, 0, 0, 3, 0], [1, 11, 6, 0, 0, 0, 0, 0, 0, 3]) := by decide +kernel

/-- 573-590: zeros go, then everything below 2.5. -/
example : (do
    let C ← Coo.ofSize 4 4
    let C ← addSyms C ([(0, 0, 1), (0, 1, 0), (0, 2, 2), (0, 3, 3)] : List (Int × Int × Rat))
    let C1 := C.eliminateZeros (1 / 10 ^ 15)
    let C2 := C1.eliminateZeros (5 / 2)
    .ok (C1.entries, C2.entries)) =
    .ok ([(0, 0, 1), (0, 2, 2), (2, 0, 2), (0, 3, 3), (3, 0, 3)], [(0, 3, 3), (3, 0, 3)]) := by decide +kernel

/-! ## test_sparse -/

/-- 76-84. -/
example : (do
    let A ← (Csr.zero 10 10 : Res (Csr Rat))
    let y ← A.multVec (List.replicate 10 1)
    let lo ← Vec.absMin y
    let hi ← Vec.absMax y
    .ok (lo, hi)) = .ok (0, 0) := by decide +kernel

/-- 88-93: the output is announced as `0 1 2 3`, `0 1 2`, `3 3 3`. -/
example : (Csr.ofDiag [3, 3, 3] : Csr Rat) = ⟨3, 3, [0, 1, 2, 3], [0, 1, 2], [3, 3, 3]⟩ := by decide +kernel

/-- The matrix of 95-126. -/
def A : Csr Rat := ⟨3, 3, [0, 2, 3, 5], [0, 1, 0, 1, 2], [3 / 2, 5 / 2, 7 / 2, 9 / 2, 11 / 2]⟩

example : (Csr.ofArrays [0, 2, 3, 5] [0, 1, 0, 1, 2] [3 / 2, 5 / 2, 7 / 2, 9 / 2, 11 / 2] 3 3 : Res (Csr Rat)) = .ok A := by
  decide +kernel

/-- 235-240: the sparse and the dense product are printed one after the other. -/
example : (do let C ← A.multSparse A; C.toDense) = (do let D ← A.toDense; D.multD D) := by decide +kernel

/-- 221-226: `ba` and `ba from AT`. -/
example : A.multATDense ⟨3, 2, [1, 3, 5, 2, 4, 6]⟩ = (do let AT ← A.transpose; AT.multDense ⟨3, 2, [1, 3, 5, 2, 4, 6]⟩) ∧
    (do let AT ← A.transpose; AT.toDense) = A.transposeDense := by decide +kernel

/-- 243-251: the submatrix of rows and columns 0 and 2; the marker is clean again. -/
example : A.getSubMatrixMarker [0, 2] [0, 2] [-1, -1, -1] =
    .ok (⟨2, 2, [0, 1, 2], [0, 1], [3 / 2, 11 / 2]⟩, [-1, -1, -1]) := by decide +kernel

/-- 302-345: the rows after sorting. -/
example : (⟨2, 2, [0, 2, 4], [1, 0, 1, 0], [1, 2, 1, 2]⟩ : Csr Rat).sortIndices
      (fun less l => l.insertionSort (fun a b => less a b = true ∨ less b a = false)) =
    .ok ⟨2, 2, [0, 2, 4], [0, 1, 0, 1], [2, 1, 2, 1]⟩ := by decide +kernel

/-- 348-360: `A * 2.0`, `(A * 2.0) / 4`, `A = -1`. -/
example : (do let B ← (A.scale 2).divScale 4; let C ← B.fillVal (-1); .ok ((A.scale 2).data, B.data, C.data)) =
    .ok ([3, 5, 7, 9, 11], [3 / 4, 5 / 4, 7 / 4, 9 / 4, 11 / 4], [-1, -1, -1, -1, -1]) := by decide +kernel

/-- 363-387. -/
example : (do
    let c ← A.eliminateColMarker [false, true, false]
    let r ← A.eliminateRow 2
    let rc ← A.eliminateRowCol 0
    .ok (c.data, r.data, rc.data)) =
    .ok ([3 / 2, 0, 7 / 2, 0, 11 / 2], [3 / 2, 5 / 2, 7 / 2, 0, 0], [1, 0, 0, 9 / 2, 11 / 2]) := by decide +kernel

/-! ## test_lil -/

/-- 21-31, 46-60: copies with the first entry added once more. -/
example : (do
    let L ← (Lil.ofSize 3 3 : Res (Lil Int))
    let L ← L.addSym 0 0 1
    let L ← L.addSym 0 1 2
    let L ← L.addSym 0 2 3
    let L2 ← L.addSym 0 0 1
    let A ← L2.toSparse (fun r => r.insertionSort (fun a b => a.1 ≤ b.1))
    let D ← L2.toDense
    .ok (A.1, D)) =
    .ok (⟨3, 3, [0, 3, 4, 5], [0, 1, 2, 0, 0], [2, 2, 3, 2, 3]⟩, ⟨3, 3, [2, 2, 3, 2, 0, 0, 3, 0, 0]⟩) := by decide +kernel

/-- 61-66. -/
example : (do
    let L ← (Lil.ofSize 4 4 : Res (Lil Rat))
    let L ← L.add 2 2 (1 / 10 ^ 8)
    let L ← L.add 2 1 (1 / 10 ^ 5)
    .ok (L.eliminateZeros (1 / 10 ^ 6)).entries) = .ok [[], [], [(1, 1 / 10 ^ 5)], []] := by decide +kernel

/-! ## test_solvers -/

/-- The matrix of 1036-1047. -/
def laplace : Res (Coo Rat) := do
  let C ← Coo.ofSize 5 5
  let C ← forUp 0 4 C (fun i C => do let C ← C.addSym i i 2; C.addSym i (i + 1) (-1))
  C.addSym 4 4 2

/-- 1051-1064, 1081-1084: `CG` and `PCG`, started somewhere, find the solution in `size` iterations; that takes `max_iter = size + 1`
(C44_limit_false). -/
example : (do
    let C ← laplace
    let A ← C.toSparse
    let b := List.replicate 5 (1 : Rat)
    let x0 : List Rat := [1 / 2, -1, 3, 0, 2]
    let x ← pcgSolve A.toOp none b x0 6 (1 / 10 ^ 12) (1 / 10 ^ 16)
    let Ax ← A.multVec x
    let px ← pcgSolve A.toOp (some (Csr.ofDiag (List.replicate 5 (1 / 2))).toOp) b x0 6 (1 / 10 ^ 12) (1 / 10 ^ 16)
    .ok (x, Ax, px)) =
    .ok ([5 / 2, 4, 9 / 2, 4, 5 / 2], [1, 1, 1, 1, 1], [5 / 2, 4, 9 / 2, 4, 5 / 2]) := by decide +kernel

/-- 1051-1064 as written, with `max_iter = size`: the residual is not zero, although nothing was rounded. -/
example : (do
    let C ← laplace
    let A ← C.toSparse
    let b := List.replicate 5 (1 : Rat)
    let x ← pcgSolve A.toOp none b [1 / 2, -1, 3, 0, 2] 5 (1 / 10 ^ 12) (1 / 10 ^ 16)
    let Ax ← A.multVec x
    let r ← Vec.update (fun u v => u - v) b Ax
    Vec.absMax r) = .ok (290607990 / 502365641) := by decide +kernel

/-! ## test_blockmatrix, test_blockoperator -/

/-- 1118-1153. -/
example : (do
    let B ← (BlockMat.new [0, 2, 4] [0, 2, 4] : Res (BlockMat Rat))
    let C ← Coo.ofSize 2 2
    let C ← addAll C [(0, 0, 1), (1, 1, 2)]
    let block ← C.toSparse
    let e ← B.getBlock 0 0
    let B ← B.setBlock 0 0 block
    let B ← B.setBlock 0 1 block
    let B ← B.setBlock 1 0 block
    let B ← B.setBlock 1 1 block
    let b ← B.getBlock 0 0
    let M ← B.combine
    let y ← B.mult [0, 1, 2, 3] [9, 9, 9, 9]
    let z ← B.multAT [0, 1, 2, 3] y
    .ok (e.nnz, b, M, y, z)) =
    .ok (0, ⟨2, 2, [0, 1, 2], [0, 1], [1, 2]⟩, ⟨4, 4, [0, 2, 4, 6, 8], [0, 2, 1, 3, 0, 2, 1, 3], [1, 1, 2, 2, 1, 1, 2, 2]⟩,
      [2, 8, 2, 8], [2, 8, 2, 8]) := by decide +kernel

/-- 1255-1273. -/
example : (do
    let C ← (do let C ← Coo.ofSize 2 2; addAll C [(0, 0, 1), (1, 1, 1)] : Res (Coo Rat))
    let S ← C.toSparse
    let B ← (BlockOp.new [0, 2, 4] [0, 2, 4] : Res (BlockOp Rat))
    let r ← B.mult [1, 1, 1, 1] [0, 0, 0, 0]
    let B1 ← B.setBlock 0 0 S.toOp
    let B1 ← B1.setBlock 0 1 S.toOp
    let B1 ← B1.setBlock 1 1 S.toOp
    let y ← B1.mult [1, 1, 1, 1] r.2
    let z ← B1.multAT [1, 1, 1, 1] y.2
    .ok (r.2, y.2, z.2)) = .ok ([0, 0, 0, 0], [2, 2, 1, 1], [1, 1, 2, 2]) := by decide +kernel

/-! ## test_blockvector -/

/-- 1186-1188: block 2 of two blocks "fails correctly". -/
example : (⟨0, 4⟩ : View).getBlock [0, 2, 4] 1 = .ok ⟨2, 2⟩ ∧ (⟨0, 4⟩ : View).getBlock [0, 2, 4] 2 = .error .assertFail := by
  decide +kernel

/-! ## test_parser -/

/-- The matrix of 868-875. -/
def spOut : Csr Int := ⟨3, 3, [0, 1, 3, 5], [0, 1, 2, 0, 2], [1, 2, 2, 3, 3]⟩

example : (do let C ← Coo.ofSize 3 3; let C ← addAll C [(0, 0, 1), (1, 1, 2), (1, 2, 2), (2, 0, 3), (2, 2, 3)]; C.toSparse) = .ok spOut := by
  decide +kernel

/-- 878, 884, 901-903: what was written is read. -/
example : (do
    let a ← writeAdjList spOut false true
    let A ← (readAdjList (some a) false : Res (Csr Int))
    let c ← writeCooList intFmt spOut false true
    let C ← readCooList intFmt (some c) false
    let m ← writeMtx intFmt spOut true
    let M ← readMtx intFmt (some m)
    let w ← readText intFmt (some a)
    .ok (A, C, M, w)) =
    .ok ({ spOut with data := [1, 1, 1, 1, 1] }, spOut, spOut, [0, 0, 1, 1, 1, 2, 2, 0, 2, 2]) := by decide +kernel

/-- 922-930: a file that does not exist. -/
example : (readCooList intFmt none false : Res (Csr Int)) = .error .threw := by decide +kernel

/-- 937-952: a table. -/
example : (do
    let C ← addAll Coo.new ([(0, 0, 1), (0, 1, 1), (0, 2, 1), (1, 2, 1), (2, 1, 1), (2, 0, 1)] : List (Int × Int × Int))
    let A ← C.toSparse
    let t ← writeTable A true
    let B ← (readTable (some t) : Res (Csr Int))
    .ok (A, B)) = .ok (⟨3, 3, [0, 3, 4, 6], [0, 1, 2, 2, 1, 0], [1, 1, 1, 1, 1, 1]⟩,
      ⟨3, 3, [0, 3, 4, 6], [0, 1, 2, 2, 1, 0], [1, 1, 1, 1, 1, 1]⟩) := by decide +kernel

/-- 970-986: binary files. -/
example : (do
    let f ← writeBinaryVec intRep (List.replicate 10 1) true
    let v ← readBinaryVec intRep (some f)
    let g ← writeBinaryMat intRep spOut true
    let A ← readBinaryMat intRep (some g)
    .ok (v, A)) = .ok (List.replicate 10 1, spOut) := by decide +kernel

/-! ## test_timer -/

/-- 1323-1330: four clicks are three steps; "Time 3 ... Correctly fails assertion". -/
example : (do
    let T := (((Timer.new false (0 : Int)).click 10).click 12 |>.click 15).click 30
    let a ← T.get 0
    let b ← T.get 1
    let c ← T.get 2
    let t ← T.total
    .ok (a, b, c, t)) = .ok (2, 3, 15, 20) ∧
    ((((Timer.new false (0 : Int)).click 10).click 12 |>.click 15).click 30).get 3 = .error .assertFail := by decide +kernel

/-! ## test_argparser -/

/-- 1393-1441, the good command line (numbers as integers). -/
def goodArgv : List Text := ["test", "--bf", "--bt", "--neg-dt", "-6", "--pos-dt", "8", "--st", "StringTest"].map String.toList

/-- 1393-1441: the values after parsing, and `IsGood`. -/
example : (do
    let P ← Args.ofArgv goodArgv
    let b := P.parseBool true "--b".toList "Bool No Change Test".toList
    let bf := b.2.parseBool false "--bf".toList "Bool False Test".toList
    let bt := bf.2.parseBool true "--bt".toList "Bool True Test".toList
    let neg := bt.2.parse intFmt 1000 "--neg-dt".toList "Negative Double Test".toList
    let pos := neg.2.parse intFmt (-1000) "--pos-dt".toList "Posative Double Test".toList
    .ok ([b.1, bf.1, bt.1, pos.2.isGood], [neg.1, pos.1], (pos.2.values.get "--st".toList).getD [])) =
    .ok ([true, true, false, true], [-6, 8], "StringTest".toList) := by decide +kernel

/-- 1444-1487, the bad command line: a flag twice, and a request twice. -/
example : (do
    let P ← Args.ofArgv (["test", "--bf", "--bf", "--bt", "--dt", "5"].map String.toList)
    let b := P.parseBool true "--b".toList "First Bool No Change Test".toList
    let b := b.2.parseBool true "--b".toList "Second Bool No Change Test".toList
    let bf := b.2.parseBool false "--bf".toList "Bool False Test".toList
    let bt := bf.2.parseBool true "--bt".toList "Bool True Test".toList
    let d := bt.2.parse intFmt (-1) "--dt".toList "Double Test".toList
    .ok (d.2.isGood, d.2.errors.length, d.1)) = .ok (false, 2, 5) := by decide +kernel

/-- 1490-1524: help is asked for. -/
example : (do
    let P ← Args.ofArgv (["test", "--bf", "--bt", "--dt", "5", "--help"].map String.toList)
    let d := P.parse intFmt (-1) "--dt".toList "Double Test".toList
    .ok (d.2.isGood, d.2.errors.length, d.1)) = .ok (false, 0, 5) := by decide +kernel

end Linalg.RepoTests
