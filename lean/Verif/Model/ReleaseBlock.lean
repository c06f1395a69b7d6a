import Verif.Model.Release
import Verif.Model.Block

/-!
# Block matrices with and without NDEBUG

The functions of `Model/Block` with the build as a parameter.  The loops `forRows` and `forEntries` index `std::vector`s and have no assertions.
-/

namespace Linalg
namespace Rel
open Cpp

variable {α : Type}

/-- The size assertions of `SetBlock` (include/blockmatrix.hpp:196-200): the offsets are read only if assertions are on. -/
def blockFits (b : Build) (B : BlockMat α) (i j : Int) (mat : Csr α) : Res Unit :=
  match b with
  | .debug => do
    cassert (i < (B.rowOff.length : Int) - 1)
    cassert (j < (B.colOff.length : Int) - 1)
    let r1 ← rd B.rowOff (i + 1)
    let r0 ← rd B.rowOff i
    cassert (mat.rows = r1 - r0)
    let c1 ← rd B.colOff (j + 1)
    let c0 ← rd B.colOff j
    cassert (mat.cols = c1 - c0)
  | .release => .ok ()

/-- `BlockMatrix(row_offsets, col_offsets)` (include/blockmatrix.hpp:131-138); the assertions are those of `Operator`. -/
def blockNew (b : Build) (rowOff colOff : List Int) : Res (BlockMat α) := do
  let rows ← lastOf rowOff
  let cols ← lastOf colOff
  b.assert (rows ≥ 0)
  b.assert (cols ≥ 0)
  .ok ⟨rows, cols, rowOff, colOff, List.replicate (rowOff.length - 1) (List.replicate (colOff.length - 1) Csr.empty)⟩

/-- `GetBlock(int i, int j)` (include/blockmatrix.hpp:184-191). -/
def blockGet (b : Build) (B : BlockMat α) (i j : Int) : Res (Csr α) := do
  b.assert (i < (B.rowOff.length : Int) - 1)
  b.assert (j < (B.colOff.length : Int) - 1)
  B.at' i j

/-- `SetBlock(int i, int j, SparseMatrix<T> mat)` (include/blockmatrix.hpp:193-203). -/
def blockSet (b : Build) (B : BlockMat α) (i j : Int) (mat : Csr α) : Res (BlockMat α) := do
  blockFits b B i j mat
  let row ← rd B.blocks i
  let row ← wr row j mat
  let blocks ← wr B.blocks i row
  .ok { B with blocks := blocks }

/-- `Transpose()` (include/blockmatrix.hpp:205-222). -/
def blockTranspose (b : Build) (B : BlockMat α) : Res (BlockMat α) := do
  let T ← blockNew b B.colOff B.rowOff
  forUp 0 ((B.rowOff.length : Int) - 1) T (fun i T =>
    forUp 0 ((B.colOff.length : Int) - 1) T (fun j T => do
      let blk ← blockGet b B i j
      blockSet b T j i blk))

/-- `Combine()` (include/blockmatrix.hpp:224-288). -/
def blockCombine [Zero α] (b : Build) (B : BlockMat α) : Res (Csr α) := do
  let nnz := B.nnzTotal
  let indptr ← mkVec (B.rows + 1) (0 : Int)
  let indices ← mkVec nnz (0 : Int)
  let data ← mkVec nnz (0 : α)
  let indptr ← wr indptr 0 0
  let st ← B.forRows (indptr, (0 : Int), indices, data) (fun i row l st => do
    let out ← B.forEntries i l st.2 (fun col d out => do
      let ind ← wr out.2.1 out.1 col
      let dat ← wr out.2.2 out.1 d
      .ok (out.1 + 1, ind, dat))
    let indptr ← wr st.1 (row + 1) out.1
    .ok (indptr, out))
  ofArrays b st.1 st.2.2.1 st.2.2.2 B.rows B.cols

/-- `Mult(input, output)` (include/blockmatrix.hpp:318-369). -/
def blockMult [Zero α] [Add α] [Mul α] (b : Build) (B : BlockMat α) (input output : List α) : Res (List α) := do
  b.assert ((input.length : Int) = B.cols)
  b.assert ((output.length : Int) = B.rows)
  let output := List.replicate output.length (0 : α)
  B.forRows output (fun i row l output => do
    let val ← B.forEntries i l (0 : α) (fun col d val => do
      let x ← vrd b input col
      .ok (val + d * x))
    vwr b output row val)

/-- `MultAT(input, output)` (include/blockmatrix.hpp:371-417). -/
def blockMultAT [Zero α] [Add α] [Mul α] (b : Build) (B : BlockMat α) (input output : List α) : Res (List α) := do
  b.assert ((input.length : Int) = B.rows)
  b.assert ((output.length : Int) = B.cols)
  let output := List.replicate output.length (0 : α)
  B.forRows output (fun i row l output =>
    B.forEntries i l output (fun col d output => do
      let x ← vrd b input row
      let old ← vrd b output col
      vwr b output col (old + d * x)))

end Rel
end Linalg
