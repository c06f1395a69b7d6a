import Verif.Model.Block
import Verif.Model.ReleaseView2

/-!
# Block operators with and without NDEBUG

As in `Model/Block`, with the build as a parameter.  The operators in the blocks are parameters and belong to either build.  A view that reaches beyond its
memory is an error when it is handed to an operator, also if that operator does not read all of it.
-/

namespace Linalg
namespace Rel
open Cpp

variable {α : Type}

/-- `SetSize(int size)` of a vector (include/vector.hpp:176-187): without the assertion `resize` throws for a negative size. -/
def vecSetSize (b : Build) (x : List α) (size : Int) (val : α) : Res (List α) :=
  if size ≠ x.length then do
    b.assert (size ≥ 0)
    if size < 0 then .error .threw else .ok (resize x size.toNat val)
  else .ok x

/-- `GetBlock(int i, int j)` (src/blockoperator.cpp:66-73); `none` is `nullptr`. -/
def bopGet (b : Build) (B : BlockOp α) (i j : Int) : Res (Option (Op α)) := do
  b.assert (i < (B.rowOff.length : Int) - 1)
  b.assert (j < (B.colOff.length : Int) - 1)
  let row ← rd B.blocks i
  rd row j

/-- The assertions of `SetBlock` (src/blockoperator.cpp:77-81): the offsets are read only if assertions are on. -/
def bopFits (b : Build) (B : BlockOp α) (i j : Int) (op : Op α) : Res Unit :=
  match b with
  | .debug => do
    cassert (i < (B.rowOff.length : Int) - 1)
    cassert (j < (B.colOff.length : Int) - 1)
    let r1 ← rd B.rowOff (i + 1)
    let r0 ← rd B.rowOff i
    cassert (op.rows = r1 - r0)
    let c1 ← rd B.colOff (j + 1)
    let c0 ← rd B.colOff j
    cassert (op.cols = c1 - c0)
  | .release => .ok ()

/-- `SetBlock(int i, int j, const Operator& op)` (src/blockoperator.cpp:75-84). -/
def bopSet (b : Build) (B : BlockOp α) (i j : Int) (op : Op α) : Res (BlockOp α) := do
  bopFits b B i j op
  let row ← rd B.blocks i
  let row ← wr row j (some op)
  let blocks ← wr B.blocks i row
  .ok { B with blocks := blocks }

/-- `view += vect` (include/vectorview.hpp:552-565) for a vector in separate memory. -/
def bopAddInto [Add α] (b : Build) (v : View) (m t : List α) : Res (List α) := do
  b.assert (v.size = t.length)
  forUp 0 v.size m (fun i m => do
    let x ← get b v m i
    let y ← vrd b t i
    put b v m i (x + y))

/-- `output = vect` (include/vectorview.hpp:245-256) for the work vector: all of it is copied, whatever the size of the output. -/
def bopStore (b : Build) (vect output : List α) : Res (List α) := do
  b.assert (vect.length = output.length)
  if vect.length ≤ output.length then .ok (vect ++ output.drop vect.length) else .error .outOfBounds

/-- One block of `Mult` (src/blockoperator.cpp:101-110); the state is `y_` and `tmp_`. -/
def bopMultStep [Zero α] [Add α] (b : Build) (B : BlockOp α) (x : List α) (i : Int) (rowY : View) (j : Int)
    (st : List α × List α) : Res (List α × List α) := do
  let row ← rd B.blocks i
  let op ← rd row j
  match op with
  | none => .ok st
  | some op => do
    let xj ← getBlock b ⟨0, x.length⟩ B.colOff j
    let xs ← BlockOp.viewElems xj x
    let tmp ← op.multResize xs st.2
    let y ← bopAddInto b rowY st.1 tmp
    .ok (y, tmp)

/-- The loops of `Mult` (src/blockoperator.cpp:91-112), after `x_ = input`. -/
def bopMultLoop [Zero α] [Add α] (b : Build) (B : BlockOp α) (x : List α) : Res (List α × List α) :=
  forUp 0 ((B.rowOff.length : Int) - 1) (List.replicate B.y.length (0 : α), B.tmp) (fun i st => do
    let rowY ← getBlock b ⟨0, st.1.length⟩ B.rowOff i
    let tmp ← vecSetSize b st.2 rowY.size 0
    forUp 0 ((B.colOff.length : Int) - 1) (st.1, tmp) (bopMultStep b B x i rowY))

/-- `Mult(input, output)` (src/blockoperator.cpp:86-115).  `x_ = input` gives `x_` the size of the input. -/
def bopMult [Zero α] [Add α] (b : Build) (B : BlockOp α) (input output : List α) : Res (BlockOp α × List α) := do
  b.assert ((input.length : Int) = B.cols)
  b.assert ((output.length : Int) = B.rows)
  let st ← bopMultLoop b B input
  let out ← bopStore b st.1 output
  .ok ({ B with x := input, y := st.1, tmp := st.2 }, out)

/-- One block of `MultAT` (src/blockoperator.cpp:134-145); the state is `x_` and `tmp_`. -/
def bopMultATStep [Zero α] [Add α] (b : Build) (B : BlockOp α) (y : List α) (j : Int) (rowX : View) (i : Int)
    (st : List α × List α) : Res (List α × List α) := do
  let row ← rd B.blocks i
  let op ← rd row j
  match op with
  | none => .ok st
  | some op => do
    let yi ← getBlock b ⟨0, y.length⟩ B.rowOff i
    let ys ← BlockOp.viewElems yi y
    let tmp ← op.multATResize ys st.2
    let x ← bopAddInto b rowX st.1 tmp
    .ok (x, tmp)

/-- The loops of `MultAT` (src/blockoperator.cpp:124-147), after `y_ = input`. -/
def bopMultATLoop [Zero α] [Add α] (b : Build) (B : BlockOp α) (y : List α) : Res (List α × List α) :=
  forUp 0 ((B.colOff.length : Int) - 1) (List.replicate B.x.length (0 : α), B.tmp) (fun j st => do
    let rowX ← getBlock b ⟨0, st.1.length⟩ B.colOff j
    let tmp ← vecSetSize b st.2 rowX.size 0
    forUp 0 ((B.rowOff.length : Int) - 1) (st.1, tmp) (bopMultATStep b B y j rowX))

/-- `MultAT(input, output)` (src/blockoperator.cpp:117-150).  `y_ = input` gives `y_` the size of the input. -/
def bopMultAT [Zero α] [Add α] (b : Build) (B : BlockOp α) (input output : List α) : Res (BlockOp α × List α) := do
  b.assert ((input.length : Int) = B.rows)
  b.assert ((output.length : Int) = B.cols)
  let st ← bopMultATLoop b B input
  let out ← bopStore b st.1 output
  .ok ({ B with y := input, x := st.1, tmp := st.2 }, out)

end Rel
end Linalg
