import Verif.Model.Coo
import Verif.Model.SparseSolve
import Verif.Model.View
import Verif.Model.Partition
import Mathlib.Algebra.Ring.Int.Defs
import Mathlib.Data.Int.Order.Basic

/-!
# The test of the direct solver (modules/sparsesolver/tests/test_sparsesolver.cpp)

The sizes, the eliminated row and the right-hand side are arguments; printing is left out.
-/

namespace Linalg
open Cpp

namespace RingTest
variable {α S N : Type}

/-- One pass of the outer loop of `MakeMatrix` (modules/sparsesolver/tests/test_sparsesolver.cpp:55-63, also
modules/partition/tests/test_partition.cpp:20-28). -/
def ringRow [NatCast α] [One α] [Neg α] (size neighbors : Nat) (i : Int) (C : Coo α) : Res (Coo α) := do
  let C ← C.addSym i i ((2 * neighbors : Nat) : α)
  forUp (i + 1) (i + neighbors + 1) C (fun j C => C.addSym i (j % size) (-1))

/-- `MakeMatrix(size, neighbors)` (modules/sparsesolver/tests/test_sparsesolver.cpp:48-66). -/
def makeMatrix [NatCast α] [Zero α] [One α] [Neg α] [Add α] (size neighbors : Nat) : Res (Csr α) := do
  cassert (size > 2 * neighbors)
  let C ← forUp 0 (size : Int) (Coo.new : Coo α) (fun i C => ringRow size neighbors i C)
  C.toSparse

/-- `EliminateRowCol(mat, row_col)` (modules/sparsesolver/tests/test_sparsesolver.cpp:68-80). -/
def eliminateRowCol [Zero α] [One α] [Add α] [Mul α] (A : Csr α) (k : Int) : Res (Csr α) := do
  let ones ← mkVec A.rows (1 : α)
  let zeros ← mkVec A.rows (0 : α)
  let ones ← wr ones k 0
  let zeros ← wr zeros k 1
  let A ← A.scaleRows ones
  let A ← A.scaleCols ones
  A.addDiag zeros

/-- `main` (modules/sparsesolver/tests/test_sparsesolver.cpp:17-46): the solution, `diff` and its norm, for a given right-hand side.  `diff` and `rhs` are two
parts of one memory. -/
def run [Field α] [DecidableEq α] (U : Umfpack α S N) (srt : Csr.Sorter) (sqrt : α → α) (size neighbors : Nat) (rhs : List α) :
    Res (List α × List α × α) := do
  let A ← makeMatrix size neighbors
  let A ← eliminateRowCol A 0
  let (F, s) ← SparseSolver.new U srt [] A
  let out ← mkVec s.rows (0 : α)
  let sol ← s.mult U F rhs out
  let diff ← A.multVec sol
  let m ← View.subAssign ⟨0, diff.length⟩ ⟨diff.length, rhs.length⟩ (diff ++ rhs)
  let nrm ← Vec.l2Norm sqrt rhs
  let m ← View.divScalar ⟨0, diff.length⟩ nrm m
  let diff := m.take diff.length
  let err ← Vec.l2Norm sqrt diff
  .ok (sol, diff, err)

/-- `main` of the test of the partitioner (modules/partition/tests/test_partition.cpp:11-45): the number that is printed and the three
partitions. -/
def partitions {β : Type} (conv : Int → β) (metis : Metis.Kway β) (size neighbors coarseFactor : Nat) :
    Res (Int × List Int × List Int × List Int) := do
  let A ← makeMatrix (α := Int) size neighbors
  let numParts : Int := max 1 (size / coarseFactor : Nat)
  let p ← Metis.partition conv metis A numParts false false
  let q ← Metis.partition conv metis A numParts true false
  let r ← Metis.partition conv metis A numParts true true
  .ok (A.nnz, p, q, r)

end RingTest
end Linalg
