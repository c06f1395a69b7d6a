import Verif.Model.Sparse
import Verif.Model.View

/-!
# BlockMatrix and BlockOperator (include/blockmatrix.hpp, src/blockoperator.cpp)

A block is a `SparseMatrix`, or for a `BlockOperator` a pointer to an `Operator`.
-/

namespace Linalg
open Cpp

/-- `class BlockMatrix<T>` (include/blockmatrix.hpp:107-112); `rows_`, `cols_` come from `Operator`. -/
structure BlockMat (α : Type) where
  rows : Int
  cols : Int
  rowOff : List Int
  colOff : List Int
  blocks : List (List (Csr α))
  deriving DecidableEq, Repr

/-- `offsets.back()`: undefined on an empty vector. -/
def lastOf (offsets : List Int) : Res Int :=
  match offsets.getLast? with
  | some x => .ok x
  | none => .error .undefinedBehaviour

namespace BlockMat
variable {α σ : Type}

/-- `BlockMatrix()` (include/blockmatrix.hpp:115-120). -/
def empty : BlockMat α := ⟨0, 0, [0], [0], []⟩

/-- `BlockMatrix(row_offsets, col_offsets)` (include/blockmatrix.hpp:131-138); the square constructor (122-129) passes
the same offsets twice. -/
def new (rowOff colOff : List Int) : Res (BlockMat α) := do
  let rows ← lastOf rowOff
  let cols ← lastOf colOff
  cassert (rows ≥ 0)
  cassert (cols ≥ 0)
  .ok ⟨rows, cols, rowOff, colOff, List.replicate (rowOff.length - 1) (List.replicate (colOff.length - 1) Csr.empty)⟩

/-- `A_[i][j]`. -/
def at' (B : BlockMat α) (i j : Int) : Res (Csr α) := do
  let r ← rd B.blocks i
  rd r j

/-- `GetBlock(int i, int j)` (include/blockmatrix.hpp:184-191). -/
def getBlock (B : BlockMat α) (i j : Int) : Res (Csr α) := do
  cassert (i < (B.rowOff.length : Int) - 1)
  cassert (j < (B.colOff.length : Int) - 1)
  B.at' i j

/-- `SetBlock(int i, int j, SparseMatrix<T> mat)` (include/blockmatrix.hpp:193-203). -/
def setBlock (B : BlockMat α) (i j : Int) (mat : Csr α) : Res (BlockMat α) := do
  cassert (i < (B.rowOff.length : Int) - 1)
  cassert (j < (B.colOff.length : Int) - 1)
  let r1 ← rd B.rowOff (i + 1)
  let r0 ← rd B.rowOff i
  cassert (mat.rows = r1 - r0)
  let c1 ← rd B.colOff (j + 1)
  let c0 ← rd B.colOff j
  cassert (mat.cols = c1 - c0)
  let row ← rd B.blocks i
  let row ← wr row j mat
  let blocks ← wr B.blocks i row
  .ok { B with blocks := blocks }

/-- `Transpose()` (include/blockmatrix.hpp:205-222). -/
def transpose (B : BlockMat α) : Res (BlockMat α) := do
  let T ← new B.colOff B.rowOff
  forUp 0 ((B.rowOff.length : Int) - 1) T (fun i T =>
    forUp 0 ((B.colOff.length : Int) - 1) T (fun j T => do
      let blk ← B.getBlock i j
      T.setBlock j i blk))

/-- The two outer loops of `Combine`, `Mult` and `MultAT` (include/blockmatrix.hpp:249-253, 279-285; 329-333, 363-367;
382-386, 413-415): `body i row local_row`. -/
def forRows (B : BlockMat α) (s : σ) (body : Int → Int → Int → σ → Res σ) : Res σ :=
  forUp 0 ((B.rowOff.length : Int) - 1) s (fun i s => do
    let lo ← rd B.rowOff i
    let hi ← rd B.rowOff (i + 1)
    let st ← forUp lo hi ((0 : Int), s) (fun row st => do
      let s ← body i row st.1 st.2
      .ok (st.1 + 1, s))
    .ok st.2)

/-- The two inner loops of the same functions (include/blockmatrix.hpp:255-278, 337-361, 388-411): every entry of
local row `l` of the blocks in block row `i`, with its column shifted to the block's offset. -/
def forEntries (B : BlockMat α) (i l : Int) (s : σ) (body : Int → α → σ → Res σ) : Res σ :=
  forUp 0 ((B.colOff.length : Int) - 1) s (fun j s => do
    let mat ← B.at' i j
    if mat.rows = 0 ∨ mat.cols = 0 then .ok s
    else do
      let offset ← rd B.colOff j
      mat.forRow l s (fun jj s => do
        let c ← rd mat.indices jj
        let d ← rd mat.data jj
        body (offset + c) d s))

/-- The number of entries of all blocks (include/blockmatrix.hpp:227-235). -/
def nnzTotal (B : BlockMat α) : Int :=
  B.blocks.foldl (fun s row => row.foldl (fun s mat => s + mat.nnz) s) 0

/-- `Combine()` (include/blockmatrix.hpp:224-288). -/
def combine [Zero α] (B : BlockMat α) : Res (Csr α) := do
  let nnz := B.nnzTotal
  let indptr ← mkVec (B.rows + 1) (0 : Int)
  let indices ← mkVec nnz (0 : Int)
  let data ← mkVec nnz (0 : α)
  let indptr ← wr indptr 0 0
  let st ← B.forRows (indptr, (0 : Int), indices, data) (fun i row l st => do
    let out ← B.forEntries i l st.2 (fun col d out => do
      let ind ← wr out.2.1 out.1 col
      let dat ← wr out.2.2 out.1 d
      .ok (out.1 + 1, ind, dat))
    let indptr ← wr st.1 (row + 1) out.1
    .ok (indptr, out))
  Csr.ofArrays st.1 st.2.2.1 st.2.2.2 B.rows B.cols

/-- `Mult(input, output)` (include/blockmatrix.hpp:318-369). -/
def mult [Zero α] [Add α] [Mul α] (B : BlockMat α) (input output : List α) : Res (List α) := do
  cassert ((input.length : Int) = B.cols)
  cassert ((output.length : Int) = B.rows)
  let output := List.replicate output.length (0 : α)
  B.forRows output (fun i row l output => do
    let val ← B.forEntries i l (0 : α) (fun col d val => do
      let x ← vrd input col
      .ok (val + d * x))
    vwr output row val)

/-- `MultAT(input, output)` (include/blockmatrix.hpp:371-417). -/
def multAT [Zero α] [Add α] [Mul α] (B : BlockMat α) (input output : List α) : Res (List α) := do
  cassert ((input.length : Int) = B.rows)
  cassert ((output.length : Int) = B.cols)
  let output := List.replicate output.length (0 : α)
  B.forRows output (fun i row l output =>
    B.forEntries i l output (fun col d output => do
      let x ← vrd input row
      let old ← vrd output col
      vwr output col (old + d * x)))

end BlockMat

/-! ## BlockOperator -/

/-- `class Operator` (include/operator.hpp:20-104): its sizes and the two virtual functions on views, as functions from
the input and the old output to the new output. -/
structure Op (α : Type) where
  rows : Int
  cols : Int
  mult : List α → List α → Res (List α)
  multAT : List α → List α → Res (List α)

/-- `Operator::Mult(input, Vector& output)` (src/operator.cpp:60-65). -/
def Op.multResize {α : Type} [Zero α] (op : Op α) (input output : List α) : Res (List α) := do
  let output ← Vec.setSize output op.rows 0
  op.mult input output

/-- `Operator::MultAT(input, Vector& output)` (src/operator.cpp:75-80). -/
def Op.multATResize {α : Type} [Zero α] (op : Op α) (input output : List α) : Res (List α) := do
  let output ← Vec.setSize output op.cols 0
  op.multAT input output

/-- `class BlockOperator` (include/blockoperator.hpp:93-103): a block is a pointer, `none` for `nullptr`; `x`, `y`,
`tmp` are the mutable work vectors. -/
structure BlockOp (α : Type) where
  rows : Int
  cols : Int
  rowOff : List Int
  colOff : List Int
  blocks : List (List (Option (Op α)))
  x : List α
  y : List α
  tmp : List α

namespace BlockOp
variable {α : Type}

/-- `BlockOperator(row_offsets, col_offsets)` (src/blockoperator.cpp:23-30) and (14-21). -/
def new [Zero α] (rowOff colOff : List Int) : Res (BlockOp α) := do
  let rows ← lastOf rowOff
  let cols ← lastOf colOff
  cassert (rows ≥ 0)
  cassert (cols ≥ 0)
  let x ← mkVec cols (0 : α)
  let y ← mkVec rows (0 : α)
  .ok ⟨rows, cols, rowOff, colOff, List.replicate (rowOff.length - 1) (List.replicate (colOff.length - 1) none), x, y, []⟩

/-- `SetBlock(int i, int j, const Operator& op)` (src/blockoperator.cpp:75-84). -/
def setBlock (B : BlockOp α) (i j : Int) (op : Op α) : Res (BlockOp α) := do
  cassert (i < (B.rowOff.length : Int) - 1)
  cassert (j < (B.colOff.length : Int) - 1)
  let r1 ← rd B.rowOff (i + 1)
  let r0 ← rd B.rowOff i
  cassert (op.rows = r1 - r0)
  let c1 ← rd B.colOff (j + 1)
  let c0 ← rd B.colOff j
  cassert (op.cols = c1 - c0)
  let row ← rd B.blocks i
  let row ← wr row j (some op)
  let blocks ← wr B.blocks i row
  .ok { B with blocks := blocks }

/-- The elements a view names, for passing to an operator. -/
def viewElems (v : View) (m : List α) : Res (List α) := Csr.slice m v.off (v.off + v.size)

/-- `view += vect` (include/vectorview.hpp:552-565) for a vector in separate memory. -/
def addInto [Add α] (v : View) (m t : List α) : Res (List α) := do
  cassert (v.size = t.length)
  forUp 0 v.size m (fun i m => do
    let a ← v.get m i
    let b ← vrd t i
    v.put m i (a + b))

/-- One block of `Mult` (src/blockoperator.cpp:104-110); the state is `y_` and `tmp_`. -/
def multStep [Zero α] [Add α] (B : BlockOp α) (x : List α) (i : Int) (rowY : View) (j : Int)
    (st : List α × List α) : Res (List α × List α) := do
  let row ← rd B.blocks i
  let op ← rd row j
  match op with
  | none => .ok st
  | some op => do
    let xj ← View.getBlock ⟨0, x.length⟩ B.colOff j
    let xs ← viewElems xj x
    let tmp ← op.multResize xs st.2
    let y ← addInto rowY st.1 tmp
    .ok (y, tmp)

/-- `Mult(input, output)` (src/blockoperator.cpp:86-115): the new work vectors and the new output.  `x_ = input` is
`Vector::operator=(const VectorView&)`, `output = y_` is `VectorView::operator=(VectorView&)`. -/
def mult [Zero α] [Add α] (B : BlockOp α) (input output : List α) : Res (BlockOp α × List α) := do
  cassert ((input.length : Int) = B.cols)
  cassert ((output.length : Int) = B.rows)
  let x := input
  let y := List.replicate B.y.length (0 : α)
  let st ← forUp 0 ((B.rowOff.length : Int) - 1) (y, B.tmp) (fun i st => do
    let rowY ← View.getBlock ⟨0, st.1.length⟩ B.rowOff i
    let tmp ← Vec.setSize st.2 rowY.size 0
    forUp 0 ((B.colOff.length : Int) - 1) (st.1, tmp) (B.multStep x i rowY))
  cassert (st.1.length = output.length)
  .ok ({ B with x := x, y := st.1, tmp := st.2 }, st.1)

/-- One block of `MultAT` (src/blockoperator.cpp:136-145); the state is `x_` and `tmp_`. -/
def multATStep [Zero α] [Add α] (B : BlockOp α) (y : List α) (j : Int) (rowX : View) (i : Int)
    (st : List α × List α) : Res (List α × List α) := do
  let row ← rd B.blocks i
  let op ← rd row j
  match op with
  | none => .ok st
  | some op => do
    let yi ← View.getBlock ⟨0, y.length⟩ B.rowOff i
    let ys ← viewElems yi y
    let tmp ← op.multATResize ys st.2
    let x ← addInto rowX st.1 tmp
    .ok (x, tmp)

/-- `MultAT(input, output)` (src/blockoperator.cpp:117-150). -/
def multAT [Zero α] [Add α] (B : BlockOp α) (input output : List α) : Res (BlockOp α × List α) := do
  cassert ((input.length : Int) = B.rows)
  cassert ((output.length : Int) = B.cols)
  let y := input
  let x := List.replicate B.x.length (0 : α)
  let st ← forUp 0 ((B.colOff.length : Int) - 1) (x, B.tmp) (fun j st => do
    let rowX ← View.getBlock ⟨0, st.1.length⟩ B.colOff j
    let tmp ← Vec.setSize st.2 rowX.size 0
    forUp 0 ((B.rowOff.length : Int) - 1) (st.1, tmp) (B.multATStep y j rowX))
  cassert (st.1.length = output.length)
  .ok ({ B with y := y, x := st.1, tmp := st.2 }, st.1)

end BlockOp
end Linalg
