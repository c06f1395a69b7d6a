import Verif.Model.View
import Verif.Model.Coo
import Verif.Model.Access

/-!
# Builds with and without NDEBUG

`assert(c)` is empty when the library is compiled with `NDEBUG` (CMake's Release build).  The functions below have the
build as a parameter; with assertions they are the functions of the other models (`C137_debug`).  Without assertions a
wrong size is no longer reported: the code goes on and reads or writes whatever memory it comes to.
-/

namespace Linalg
open Cpp

/-- How the library was compiled: without or with `NDEBUG`. -/
inductive Build
  | debug
  | release
  deriving DecidableEq, Repr

/-- `assert(p)` in either build. -/
def Build.assert (b : Build) (p : Prop) [Decidable p] : Res Unit :=
  match b with
  | .debug => cassert p
  | .release => .ok ()

/-- `assert(indptr_[0] == 0)` (include/sparsematrix.hpp:476): the element is read only if assertions are on. -/
def Build.firstPtr (b : Build) (indptr : List Int) : Res Unit :=
  match b with
  | .debug => do
    let p0 ← rd indptr 0
    cassert (p0 = 0)
  | .release => .ok ()

namespace Rel
variable {α : Type}

/-- `v[i]` on a vector that is the whole of its memory (include/vectorview.hpp:327-333). -/
def vrd (b : Build) (v : List α) (i : Int) : Res α := do
  b.assert (i < v.length)
  rd v i

/-- `v[i] = x` on a vector that is the whole of its memory (include/vectorview.hpp:319-325). -/
def vwr (b : Build) (v : List α) (i : Int) (x : α) : Res (List α) := do
  b.assert (i < v.length)
  wr v i x

/-! ## VectorView -/

/-- `operator[]`, reading (include/vectorview.hpp:327-333). -/
def get (b : Build) (v : View) (m : List α) (i : Int) : Res α := do
  b.assert (i < v.size)
  rd m (v.off + i)

/-- `operator[]`, writing (include/vectorview.hpp:319-325). -/
def put (b : Build) (v : View) (m : List α) (i : Int) (x : α) : Res (List α) := do
  b.assert (i < v.size)
  wr m (v.off + i) x

/-- `operator=(const VectorView&)` and its overloads, and `Set(rhs)` (include/vectorview.hpp:245-278, 435-441):
`std::copy` of all of `y` to the start of `x`. -/
def assign (b : Build) (x y : View) (m : List α) : Res (List α) := do
  b.assert (y.size = x.size)
  View.copy x y m

/-- `Add(double alpha, const VectorView& rhs)` (include/vectorview.hpp:380-391). -/
def addScaled [Add α] [Mul α] (b : Build) (x : View) (alpha : α) (y : View) (m : List α) : Res (List α) := do
  b.assert (y.size = x.size)
  forUp 0 x.size m (fun i m => do
    let c ← get b y m i
    let a ← rd m (x.off + i)
    wr m (x.off + i) (a + alpha * c))

/-- `Sub(double alpha, const VectorView& rhs)` (include/vectorview.hpp:401-412). -/
def subScaled [Sub α] [Mul α] (b : Build) (x : View) (alpha : α) (y : View) (m : List α) : Res (List α) := do
  b.assert (y.size = x.size)
  forUp 0 x.size m (fun i m => do
    let c ← get b y m i
    let a ← rd m (x.off + i)
    wr m (x.off + i) (a - alpha * c))

/-- `Set(double alpha, const VectorView& rhs)` (include/vectorview.hpp:422-433). -/
def setScaled [Mul α] (b : Build) (x : View) (alpha : α) (y : View) (m : List α) : Res (List α) := do
  b.assert (y.size = x.size)
  forUp 0 x.size m (fun i m => do
    let c ← get b y m i
    wr m (x.off + i) (alpha * c))

/-- `lhs += rhs` and `Add(rhs)` (include/vectorview.hpp:552-565, 393-399). -/
def addAssign [Add α] (b : Build) (x y : View) (m : List α) : Res (List α) := do
  b.assert (x.size = y.size)
  forUp 0 x.size m (fun i m => do
    let c ← get b y m i
    let a ← get b x m i
    put b x m i (a + c))

/-- `lhs -= rhs` and `Sub(rhs)` (include/vectorview.hpp:571-584, 414-420). -/
def subAssign [Sub α] (b : Build) (x y : View) (m : List α) : Res (List α) := do
  b.assert (x.size = y.size)
  forUp 0 x.size m (fun i m => do
    let c ← get b y m i
    let a ← get b x m i
    put b x m i (a - c))

/-- `lhs *= rhs`, entry by entry (include/vectorview.hpp:512-525). -/
def mulAssign [Mul α] (b : Build) (x y : View) (m : List α) : Res (List α) := do
  b.assert (x.size = y.size)
  forUp 0 x.size m (fun i m => do
    let c ← get b y m i
    let a ← get b x m i
    put b x m i (a * c))

/-- `Mult(vect)` (include/vectorview.hpp:467-475): `std::inner_product` over all of `x`, reading `y` alongside. -/
def inner [Zero α] [Add α] [Mul α] (b : Build) (x y : List α) : Res α := do
  b.assert (y.length = x.length)
  forUp 0 x.length (0 : α) (fun i s => do
    let a ← rd x i
    let c ← rd y i
    .ok (s + a * c))

/-! ## SparseMatrix -/

/-- `SparseMatrix(indptr, indices, data, rows, cols)` (include/sparsematrix.hpp:466-483, src/operator.cpp:18-23). -/
def ofArrays (b : Build) (indptr indices : List Int) (data : List α) (rows cols : Int) : Res (Csr α) := do
  b.assert (rows ≥ 0)
  b.assert (cols ≥ 0)
  b.assert ((indptr.length : Int) = rows + 1)
  b.assert (indices.length = data.length)
  b.firstPtr indptr
  if indices.length > 0 then
    b.assert (∀ c ∈ indices, c < cols)
    b.assert (∀ c ∈ indices, c ≥ 0)
  .ok ⟨rows, cols, indptr, indices, data⟩

/-- `RowSize(int row)` (include/sparsematrix.hpp:1207-1213). -/
def rowSize (b : Build) (A : Csr α) (row : Int) : Res Int := do
  b.assert (row ≥ 0 ∧ row < A.rows)
  let q ← rd A.indptr (row + 1)
  let p ← rd A.indptr row
  .ok (q - p)

/-- `Mult(const VectorView<U>& input, VectorView<V> output)` (include/sparsematrix.hpp:1034-1052). -/
def mult [Zero α] [Add α] [Mul α] (b : Build) (A : Csr α) (input output : List α) : Res (List α) := do
  b.assert ((input.length : Int) = A.cols)
  b.assert ((output.length : Int) = A.rows)
  forUp 0 A.rows output (fun i output => do
    let val ← A.forRow i (0 : α) (fun j val => do
      let d ← rd A.data j
      let c ← rd A.indices j
      let x ← vrd b input c
      .ok (val + d * x))
    vwr b output i val)

/-- `MultAT(const VectorView<U>& input, VectorView<V> output)` (include/sparsematrix.hpp:1054-1070): `output = 0`
sets every entry of the view. -/
def multAT [Zero α] [Add α] [Mul α] (b : Build) (A : Csr α) (input output : List α) : Res (List α) := do
  b.assert ((input.length : Int) = A.rows)
  b.assert ((output.length : Int) = A.cols)
  let output := List.replicate output.length (0 : α)
  forUp 0 A.rows output (fun i output =>
    A.forRow i output (fun j output => do
      let c ← rd A.indices j
      let d ← rd A.data j
      let x ← vrd b input i
      let old ← vrd b output c
      vwr b output c (old + d * x)))

/-! ## CooMatrix -/

/-- `Add(int i, int j, T val)` (include/coomatrix.hpp:325-339). -/
def cooAdd (b : Build) (C : Coo α) (i j : Int) (val : α) : Res (Coo α) := do
  b.assert (i ≥ 0)
  b.assert (j ≥ 0)
  if C.sizeSet then
    b.assert (i < C.rows)
    b.assert (j < C.cols)
  .ok { C with entries := C.entries ++ [(i, j, val)] }

/-- `ToSparse()` (include/coomatrix.hpp:583-634); `SparseMatrix(rows, cols)` is include/sparsematrix.hpp:458-464. -/
def toSparse [Zero α] [Add α] (b : Build) (C : Coo α) : Res (Csr α) := do
  let rows := C.findSize.1
  let cols := C.findSize.2
  if C.entries.isEmpty then do
    b.assert (rows ≥ 0)
    b.assert (cols ≥ 0)
    let p ← mkVec (rows + 1) (0 : Int)
    .ok ⟨rows, cols, p, [], []⟩
  else
    let indptr ← mkVec (rows + 1) (0 : Int)
    let indexMap ← mkVec rows ([] : List (Int × Int))
    let st ← C.entries.foldlM Coo.countStep (indptr, indexMap)
    let indptr ← partialSum st.1
    let nnz ← rd indptr ((indptr.length : Int) - 1)
    let indices ← mkVec nnz (0 : Int)
    let data ← mkVec nnz (0 : α)
    let out ← C.entries.foldlM (Coo.fillStep indptr st.2) (indices, data)
    ofArrays b indptr out.1 out.2 rows cols

/-- `Mult(input, output)` (include/coomatrix.hpp:636-652). -/
def cooMult [Zero α] [Add α] [Mul α] (b : Build) (C : Coo α) (input output : List α) : Res (List α) := do
  b.assert (C.rows = output.length)
  b.assert (C.cols = input.length)
  C.entries.foldlM (fun out e => do
    let x ← vrd b input e.2.1
    let old ← vrd b out e.1
    vwr b out e.1 (old + e.2.2 * x)) (List.replicate output.length 0)

/-- `MultAT(input, output)` (include/coomatrix.hpp:654-670). -/
def cooMultAT [Zero α] [Add α] [Mul α] (b : Build) (C : Coo α) (input output : List α) : Res (List α) := do
  b.assert (C.rows = output.length)
  b.assert (C.cols = input.length)
  C.entries.foldlM (fun out e => do
    let x ← vrd b input e.1
    let old ← vrd b out e.2.1
    vwr b out e.2.1 (old + e.2.2 * x)) (List.replicate output.length 0)

end Rel
end Linalg
