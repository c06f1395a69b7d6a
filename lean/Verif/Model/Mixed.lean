import Verif.Model.Sparse
import Verif.Model.Coo
import Verif.Model.Lil
import Verif.Model.View
import Mathlib.Data.Rat.Floor

/-!
# Operands of different element types

`SparseMatrix<T>::Mult` is a template in the element types of the argument and of the result, and the other models take these types to
be one.  Here they are three: `T` for the matrix, `U` for the argument, `V` for the result.  What C++ does with a product of a `T` and a
`U` that is stored in a `V` is described by two functions: `V v = a * b` and `v += a * b`.  The second converts the *sum* to `V`, at
every addition.  Conversions to `int` of values out of range are left out (the integers are unbounded); a `double` is a rational number.
-/

namespace Linalg
open Cpp

/-- How a product of a `T` and a `U` is stored in, and added to, a `V`. -/
structure Mix (T U V : Type) where
  /-- `v = a * b` -/
  set : T → U → V
  /-- `v += a * b` -/
  acc : V → T → U → V

/-- The conversion of a `double` to `int`: towards zero. -/
def trunc (q : ℚ) : Int := if 0 ≤ q then ⌊q⌋ else ⌈q⌉

namespace Mix
variable {T U α : Type}

/-- All types are the same. -/
def one [Add α] [Mul α] : Mix α α α := ⟨fun a b => a * b, fun v a b => v + a * b⟩

/-- The result is an `int`; the operands are numbers of any kind. -/
def toInt (φ : T → ℚ) (ψ : U → ℚ) : Mix T U Int := ⟨fun a b => trunc (φ a * ψ b), fun v a b => trunc (v + φ a * ψ b)⟩

/-- The result is a `double`. -/
def toDouble (φ : T → ℚ) (ψ : U → ℚ) : Mix T U ℚ := ⟨fun a b => φ a * ψ b, fun v a b => v + φ a * ψ b⟩

/-- `int` matrix, `double` vector, `int` result: what `Mult(x)` of a `SparseMatrix<int>` computes. -/
def intDouble : Mix Int ℚ Int := toInt (fun a => (a : ℚ)) id

/-- `int` matrix, `double` vector, `double` result: what `Mult(x, y)` of a `SparseMatrix<int>` computes. -/
def intDoubleDouble : Mix Int ℚ ℚ := toDouble (fun a => (a : ℚ)) id

/-- `double` operands, `int` result: `A.Mult<double, int>(B)`. -/
def doubleInt : Mix ℚ ℚ Int := toInt id id

end Mix

namespace Csr
variable {T U V : Type}

/-- `Mult<U, V>(input, output)` (include/sparsematrix.hpp:1034-1052). -/
def multM [Zero V] (m : Mix T U V) (A : Csr T) (input : List U) (output : List V) : Res (List V) := do
  cassert ((input.length : Int) = A.cols)
  cassert ((output.length : Int) = A.rows)
  forUp 0 A.rows output (fun i output => do
    let val ← A.forRow i (0 : V) (fun j val => do
      let d ← rd A.data j
      let c ← rd A.indices j
      let x ← vrd input c
      .ok (m.acc val d x))
    vwr output i val)

/-- `MultAT<U, V>(input, output)` (include/sparsematrix.hpp:1054-1070). -/
def multATM [Zero V] (m : Mix T U V) (A : Csr T) (input : List U) (output : List V) : Res (List V) := do
  cassert ((input.length : Int) = A.rows)
  cassert ((output.length : Int) = A.cols)
  let output := List.replicate output.length (0 : V)
  forUp 0 A.rows output (fun i output =>
    A.forRow i output (fun j output => do
      let c ← rd A.indices j
      let d ← rd A.data j
      let x ← vrd input i
      let old ← vrd output c
      vwr output c (m.acc old d x)))

/-- `Vector<T> Mult<U>(input)` (include/sparsematrix.hpp:1014-1022): the result has the element type of the *matrix*. -/
def multVecM [Zero T] (m : Mix T U T) (A : Csr T) (input : List U) : Res (List T) := do
  let output ← mkVec A.rows (0 : T)
  A.multM m input output

/-- `Vector<T> MultAT<U>(input)` (include/sparsematrix.hpp:1024-1032). -/
def multATVecM [Zero T] (m : Mix T U T) (A : Csr T) (input : List U) : Res (List T) := do
  let output ← mkVec A.cols (0 : T)
  A.multATM m input output

/-- `Transpose<U>()` (include/sparsematrix.hpp:711-751); `out_data[...] = val` converts to `U`. -/
def transposeM [Zero U] (conv : T → U) (A : Csr T) : Res (Csr U) := do
  let outIndptr ← mkVec (A.cols + 1) (0 : Int)
  let outIndices := List.replicate A.data.length (0 : Int)
  let outData := List.replicate A.data.length (0 : U)
  let outIndptr ← A.indices.foldlM (fun p col => do
    let x ← rd p (col + 1)
    wr p (col + 1) (x + 1)) outIndptr
  let outIndptr ← forUp 0 A.cols outIndptr (fun i p => do
    let x ← rd p (i + 1)
    let y ← rd p i
    wr p (i + 1) (x + y))
  let out ← forUp 0 A.rows (outIndptr, outIndices, outData) (fun i out =>
    A.forRow i out (fun j out => do
      let row ← rd A.indices j
      let val ← rd A.data j
      let k ← rd out.1 row
      let ix ← wr out.2.1 k i
      let dt ← wr out.2.2 k (conv val)
      let p ← wr out.1 row (k + 1)
      .ok (p, ix, dt)))
  let p ← forDown A.cols 0 out.1 (fun i p => do
    let x ← rd p (i - 1)
    wr p i x)
  let p ← wr p 0 0
  ofArrays p out.2.1 out.2.2 A.cols A.rows

/-- `Mult<U, V>(rhs, marker)` (include/sparsematrix.hpp:1100-1168). -/
def multSparseMarkerM [Zero V] (m : Mix T U V) (A : Csr T) (B : Csr U) (marker : List Int) : Res (Csr V) := do
  cassert (B.rows = A.cols)
  let marker := List.replicate (resize marker B.cols.toNat 0).length (-1 : Int)
  let outIndptr ← mkVec (A.rows + 1) (0 : Int)
  let outIndptr ← wr outIndptr 0 0
  -- symbolic pass: state (marker, out_nnz, out_indptr)
  let st ← forUp 0 A.rows (marker, (0 : Int), outIndptr) (fun i st => do
    let mn ← A.forRow i (st.1, st.2.1) (fun j mn => do
      let l ← rd A.indices j
      B.forRow l mn (fun k mn => do
        let c ← rd B.indices k
        let m ← rd mn.1 c
        if m ≠ i then
          let marker ← wr mn.1 c i
          .ok (marker, mn.2 + 1)
        else .ok mn))
    let p ← wr st.2.2 (i + 1) mn.2
    .ok (mn.1, mn.2, p))
  let outNnz := st.2.1
  let outIndptr := st.2.2
  let marker := List.replicate st.1.length (-1 : Int)
  let outIndices ← mkVec outNnz (0 : Int)
  let outData ← mkVec outNnz (0 : V)
  -- numeric pass: state (marker, total, out_indices, out_data)
  let st ← forUp 0 A.rows (marker, (0 : Int), outIndices, outData) (fun i st => do
    let rowNnz := st.2.1
    A.forRow i st (fun j st => do
      let l ← rd A.indices j
      B.forRow l st (fun k st => do
        let c ← rd B.indices k
        let mk ← rd st.1 c
        let a ← rd A.data j
        let b ← rd B.data k
        if mk < rowNnz then
          let marker ← wr st.1 c st.2.1
          let ix ← wr st.2.2.1 st.2.1 c
          let dt ← wr st.2.2.2 st.2.1 (m.set a b)
          .ok (marker, st.2.1 + 1, ix, dt)
        else
          let old ← rd st.2.2.2 mk
          let dt ← wr st.2.2.2 mk (m.acc old a b)
          .ok (st.1, st.2.1, st.2.2.1, dt))))
  ofArrays outIndptr st.2.2.1 st.2.2.2 A.rows B.cols

/-- `Mult<U, V>(rhs)` (include/sparsematrix.hpp:1091-1098). -/
def multSparseM [Zero V] (m : Mix T U V) (A : Csr T) (B : Csr U) : Res (Csr V) := do
  let marker ← mkVec B.cols (0 : Int)
  A.multSparseMarkerM m B marker

/-- `operator*=(U val)` (include/sparsematrix.hpp:1170-1180), also `operator*(A, val)` and `operator*(val, A)` (1218-1236); `mul` is
`i *= val`. -/
def scaleM (mul : T → U → T) (A : Csr T) (val : U) : Csr T := { A with data := A.data.map (fun d => mul d val) }

/-- `operator/=(U val)` (include/sparsematrix.hpp:1182-1194): the assertion looks at `val` before it is converted. -/
def divScaleM [Zero U] [DecidableEq U] (div : T → U → T) (A : Csr T) (val : U) : Res (Csr T) := do
  cassert (val ≠ 0)
  .ok { A with data := A.data.map (fun d => div d val) }

/-- `operator=(U val)` (include/sparsematrix.hpp:1196-1205): the assertion looks at `val` before it is converted. -/
def fillValM [Zero U] [DecidableEq U] (conv : U → T) (A : Csr T) (val : U) : Res (Csr T) := do
  cassert (val ≠ 0)
  .ok { A with data := List.replicate A.data.length (conv val) }

end Csr

/-- Body of the filling loop of `CooMatrix<T>::ToSparse<U>()` (include/coomatrix.hpp:622-631): the value is converted, then added. -/
def Coo.fillStepM {T U : Type} [Add U] (conv : T → U) (indptr : List Int) (indexMap : List (List (Int × Int))) (out : List Int × List U)
    (e : Int × Int × T) : Res (List Int × List U) := do
  let p ← rd indptr e.1
  let m ← rd indexMap e.1
  let val := conv e.2.2
  match m.lookup e.2.1 with
  | none => .error .threw
  | some k => do
    let ix ← wr out.1 (p + k) e.2.1
    let d ← rd out.2 (p + k)
    let dt ← wr out.2 (p + k) (d + val)
    .ok (ix, dt)

/-- `CooMatrix<T>::ToSparse<U>()` (include/coomatrix.hpp:583-634). -/
def Coo.toSparseM {T U : Type} [Zero U] [Add U] (conv : T → U) (C : Coo T) : Res (Csr U) := do
  let rows := C.findSize.1
  let cols := C.findSize.2
  if C.entries.isEmpty then Csr.zero rows cols
  else
    let indptr ← mkVec (rows + 1) (0 : Int)
    let indexMap ← mkVec rows ([] : List (Int × Int))
    let st ← C.entries.foldlM Coo.countStep (indptr, indexMap)
    let indptr ← partialSum st.1
    let nnz ← rd indptr ((indptr.length : Int) - 1)
    let indices ← mkVec nnz (0 : Int)
    let data ← mkVec nnz (0 : U)
    let out ← C.entries.foldlM (Coo.fillStepM conv indptr st.2) (indices, data)
    Csr.ofArrays indptr out.1 out.2 rows cols

/-- Body of the loop over the nodes of a row in `LilMatrix<T>::ToSparse<U>()` (include/lilmatrix.hpp:387-402): a new entry is converted,
but to an entry that is there already the value is added first and the sum is converted (`acc`). -/
def Lil.mergeStepM {T U : Type} (conv : T → U) (acc : U → T → U) (currentRow : Int) (e : List Int × List U) (node : Int × T) :
    Res (List Int × List U) :=
  if (e.1.length : Int) ≠ currentRow ∧ e.1.getLast? = some node.1 then do
    let d ← rd e.2 ((e.2.length : Int) - 1)
    let dt ← wr e.2 ((e.2.length : Int) - 1) (acc d node.2)
    .ok (e.1, dt)
  else .ok (e.1 ++ [node.1], e.2 ++ [conv node.2])

/-- `LilMatrix<T>::ToSparse<U>()` (include/lilmatrix.hpp:352-408). -/
def Lil.toSparseM {T U : Type} (conv : T → U) (acc : U → T → U) (sort : List (Int × T) → List (Int × T)) (L : Lil T) :
    Res (Csr U × Lil T) := do
  let rows := L.findSize.1
  let cols := L.findSize.2
  if L.entries.length = 0 then
    let A ← Csr.zero rows cols
    .ok (A, L)
  else
    let entries := L.entries.map sort
    let indptr ← mkVec (rows + 1) (0 : Int)
    let indptr ← wr indptr 0 0
    let st ← forUp 0 (entries.length : Int) (indptr, ([] : List Int), ([] : List U)) (fun i st => do
      let currentRow ← rd st.1 i
      let row ← rd entries i
      let e ← row.foldlM (Lil.mergeStepM conv acc currentRow) st.2
      let p ← wr st.1 (i + 1) (e.2.length : Int)
      .ok (p, e.1, e.2))
    let A ← Csr.ofArrays st.1 st.2.1 st.2.2 rows cols
    .ok (A, { L with entries := entries })

/-- `Add(double alpha, const VectorView<T>& rhs)` and `Sub`, `Set` (include/vectorview.hpp:380-391, 401-412, 422-433) of a vector whose
element type `T` need not be `double`, on vectors that do not share memory: `upd a alpha b` is `a += alpha * b`, `a -= alpha * b` or
`a = alpha * b`. -/
def Vec.updScaledM {T D : Type} (upd : T → D → T → T) (x : List T) (alpha : D) (y : List T) : Res (List T) := do
  cassert (y.length = x.length)
  forUp 0 (x.length : Int) x (fun i x => do
    let b ← vrd y i
    let a ← rd x i
    wr x i (upd a alpha b))

end Linalg
