import Verif.Model.Sparse
import Verif.Model.Coo
import Verif.Model.Lil
import Verif.Model.Block

/-!
# Products whose result may share memory with the argument

`Mult(const VectorView& input, VectorView output)` and `MultAT` of the matrix classes, once more, on one memory (see `Model/View.lean`):
nothing in the signatures keeps the two views apart.  The functions of `Model/Sparse.lean`, `Model/Dense.lean`, `Model/Coo.lean`,
`Model/Lil.lean` and `Model/Block.lean` take the elements of the two views as separate lists.
-/

namespace Linalg
open Cpp

variable {α : Type}

namespace Csr

/-- `Mult(input, output)` (include/sparsematrix.hpp:1034-1052). -/
def multView [Zero α] [Add α] [Mul α] (A : Csr α) (input output : View) (m : List α) : Res (List α) := do
  cassert (input.size = A.cols)
  cassert (output.size = A.rows)
  forUp 0 A.rows m (fun i m => do
    let val ← A.forRow i (0 : α) (fun j val => do
      let d ← rd A.data j
      let c ← rd A.indices j
      let x ← input.get m c
      .ok (val + d * x))
    output.put m i val)

/-- `MultAT(input, output)` (include/sparsematrix.hpp:1054-1070). -/
def multATView [Zero α] [Add α] [Mul α] (A : Csr α) (input output : View) (m : List α) : Res (List α) := do
  cassert (input.size = A.rows)
  cassert (output.size = A.cols)
  let m ← output.fill 0 m
  forUp 0 A.rows m (fun i m =>
    A.forRow i m (fun j m => do
      let c ← rd A.indices j
      let d ← rd A.data j
      let x ← input.get m i
      let old ← output.get m c
      output.put m c (old + d * x)))

end Csr

namespace Dense

/-- `Mult(input, output)` (include/densematrix.hpp:655-670). -/
def multView [Zero α] [Add α] [Mul α] (D : Dense α) (input output : View) (m : List α) : Res (List α) := do
  cassert (input.size = D.cols)
  cassert (output.size = D.rows)
  let m ← output.fill 0 m
  forUp 0 D.cols m (fun j m =>
    forUp 0 D.rows m (fun i m => do
      let a ← D.get i j
      let x ← input.get m j
      let old ← output.get m i
      output.put m i (old + a * x)))

/-- `MultAT(input, output)` (include/densematrix.hpp:681-698). -/
def multATView [Zero α] [Add α] [Mul α] (D : Dense α) (input output : View) (m : List α) : Res (List α) := do
  cassert (input.size = D.rows)
  cassert (output.size = D.cols)
  forUp 0 D.cols m (fun j m => do
    let val ← forUp 0 D.rows (0 : α) (fun i val => do
      let a ← D.get i j
      let x ← input.get m i
      .ok (val + a * x))
    output.put m j val)

end Dense

namespace Coo

/-- `Mult(input, output)` (include/coomatrix.hpp:636-652). -/
def multView [Zero α] [Add α] [Mul α] (C : Coo α) (input output : View) (m : List α) : Res (List α) := do
  cassert (C.rows = output.size)
  cassert (C.cols = input.size)
  let m ← output.fill 0 m
  C.entries.foldlM (fun m e => do
    let x ← input.get m e.2.1
    let old ← output.get m e.1
    output.put m e.1 (old + e.2.2 * x)) m

/-- `MultAT(input, output)` (include/coomatrix.hpp:654-670). -/
def multATView [Zero α] [Add α] [Mul α] (C : Coo α) (input output : View) (m : List α) : Res (List α) := do
  cassert (C.rows = output.size)
  cassert (C.cols = input.size)
  let m ← output.fill 0 m
  C.entries.foldlM (fun m e => do
    let x ← input.get m e.1
    let old ← output.get m e.2.1
    output.put m e.2.1 (old + e.2.2 * x)) m

end Coo

namespace Lil

/-- `Mult(input, output)` (include/lilmatrix.hpp:410-432). -/
def multView [Zero α] [Add α] [Mul α] (L : Lil α) (input output : View) (m : List α) : Res (List α) := do
  cassert (L.findSize.1 = output.size)
  cassert (L.findSize.2 = input.size)
  let m ← output.fill 0 m
  forUp 0 (L.entries.length : Int) m (fun i m => do
    let row ← rd L.entries i
    row.foldlM (fun m node => do
      let x ← input.get m node.1
      let old ← output.get m i
      output.put m i (old + node.2 * x)) m)

/-- `MultAT(input, output)` (include/lilmatrix.hpp:434-456). -/
def multATView [Zero α] [Add α] [Mul α] (L : Lil α) (input output : View) (m : List α) : Res (List α) := do
  cassert (L.findSize.1 = output.size)
  cassert (L.findSize.2 = input.size)
  let m ← output.fill 0 m
  forUp 0 (L.entries.length : Int) m (fun i m => do
    let row ← rd L.entries i
    row.foldlM (fun m node => do
      let x ← input.get m i
      let old ← output.get m node.1
      output.put m node.1 (old + node.2 * x)) m)

end Lil

namespace BlockMat

/-- `Mult(input, output)` (include/blockmatrix.hpp:318-369). -/
def multView [Zero α] [Add α] [Mul α] (B : BlockMat α) (input output : View) (m : List α) : Res (List α) := do
  cassert (input.size = B.cols)
  cassert (output.size = B.rows)
  let m ← output.fill 0 m
  B.forRows m (fun i row l m => do
    let val ← B.forEntries i l (0 : α) (fun col d val => do
      let x ← input.get m col
      .ok (val + d * x))
    output.put m row val)

/-- `MultAT(input, output)` (include/blockmatrix.hpp:371-417). -/
def multATView [Zero α] [Add α] [Mul α] (B : BlockMat α) (input output : View) (m : List α) : Res (List α) := do
  cassert (input.size = B.rows)
  cassert (output.size = B.cols)
  let m ← output.fill 0 m
  B.forRows m (fun i row l m =>
    B.forEntries i l m (fun col d m => do
      let x ← input.get m row
      let old ← output.get m col
      output.put m col (old + d * x)))

end BlockMat

namespace BlockOp

/-- `Mult(input, output)` (src/blockoperator.cpp:86-115): the input is copied to `x_` before anything is written, the result goes from `y_`
to the output at the end. -/
def multView [Zero α] [Add α] (B : BlockOp α) (input output : View) (m : List α) : Res (BlockOp α × List α) := do
  let x ← viewElems input m
  let old ← viewElems output m
  let r ← B.mult x old
  let m ← forUp 0 output.size m (fun i m => do
    let v ← rd r.2 i
    output.put m i v)
  .ok (r.1, m)

/-- `MultAT(input, output)` (src/blockoperator.cpp:117-150): the same with `y_` and `x_`. -/
def multATView [Zero α] [Add α] (B : BlockOp α) (input output : View) (m : List α) : Res (BlockOp α × List α) := do
  let y ← viewElems input m
  let old ← viewElems output m
  let r ← B.multAT y old
  let m ← forUp 0 output.size m (fun i m => do
    let v ← rd r.2 i
    output.put m i v)
  .ok (r.1, m)

end BlockOp
end Linalg
