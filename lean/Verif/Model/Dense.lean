import Verif.Cpp.Basic
import Mathlib.Algebra.Group.Defs
import Mathlib.Algebra.Order.Group.Abs

/-!
# DenseMatrix (include/densematrix.hpp, src/densematrix.cpp)

Column-major dense matrix.  The element type is a parameter (the code uses `double`).
-/

namespace Linalg
open Cpp

/-- `class DenseMatrix` (include/densematrix.hpp:23-582): `rows_`, `cols_` (from `Operator`), `data_`. -/
structure Dense (α : Type) where
  rows : Int
  cols : Int
  data : List α
  deriving DecidableEq, Repr

namespace Dense
variable {α : Type}

/-- The four assertions of `operator()` (include/densematrix.hpp:586-607). -/
def checkIdx (D : Dense α) (row col : Int) : Res Unit := do
  cassert (row ≥ 0)
  cassert (col ≥ 0)
  cassert (row < D.rows)
  cassert (col < D.cols)

/-- Reading `D(row, col)` (include/densematrix.hpp:597-607). -/
def get (D : Dense α) (row col : Int) : Res α := do
  D.checkIdx row col
  rd D.data (row + col * D.rows)

/-- Assigning `D(row, col) = x` (include/densematrix.hpp:586-595). -/
def put (D : Dense α) (row col : Int) (x : α) : Res (Dense α) := do
  D.checkIdx row col
  let d ← wr D.data (row + col * D.rows) x
  .ok { D with data := d }

/-- `DenseMatrix(int rows, int cols, std::vector<double> data)` (src/densematrix.cpp:46-53). -/
def ofData (rows cols : Int) (data : List α) : Res (Dense α) := do
  cassert (rows ≥ 0)
  cassert (cols ≥ 0)
  cassert ((data.length : Int) = rows * cols)
  .ok ⟨rows, cols, data⟩

/-- `DenseMatrix(int rows, int cols)` (src/densematrix.cpp:41-44).  The vector of `rows * cols` zeros is
built before the sign of `rows`, `cols` is asserted. -/
def zeros [Zero α] (rows cols : Int) : Res (Dense α) := do
  let v ← mkVec (rows * cols) (0 : α)
  ofData rows cols v

/-- `SetSize(int rows, int cols)` (src/densematrix.cpp:90-98): resizes the flat buffer; new elements are 0. -/
def setSize [Zero α] (D : Dense α) (rows cols : Int) : Res (Dense α) := do
  cassert (rows ≥ 0)
  cassert (cols ≥ 0)
  .ok ⟨rows, cols, resize D.data (rows * cols).toNat 0⟩

/-- `SetSize(int rows, int cols, double val)` (src/densematrix.cpp:105-113). -/
def setSizeVal (D : Dense α) (rows cols : Int) (val : α) : Res (Dense α) := do
  cassert (rows ≥ 0)
  cassert (cols ≥ 0)
  .ok ⟨rows, cols, resize D.data (rows * cols).toNat val⟩

/-- `operator=(double val)`: fills the buffer (src/densematrix.cpp:340-345). -/
def fill (D : Dense α) (val : α) : Dense α :=
  { D with data := List.replicate D.data.length val }

/-- `DenseMatrix()` (src/densematrix.cpp:32-34): the `Operator` base is 0 x 0 and the buffer empty. -/
def empty : Dense α := ⟨0, 0, []⟩

/-! ## Transpose -/

/-- `Transpose(DenseMatrix& transpose)` (src/densematrix.cpp:147-158).  Argument and result are distinct objects. -/
def transposeInto [Zero α] (D out : Dense α) : Res (Dense α) := do
  let out ← out.setSize D.cols D.rows
  forUp 0 D.rows out (fun i out =>
    forUp 0 D.cols out (fun j out => do
      let x ← D.get i j
      out.put j i x))

/-- `Transpose()` (src/densematrix.cpp:138-145). -/
def transpose [Zero α] (D : Dense α) : Res (Dense α) := do
  let out ← zeros D.cols D.rows
  D.transposeInto out

/-! ## Products with vectors -/

/-- `Mult(const VectorView<T>& input, VectorView<U> output)` (include/densematrix.hpp:655-670). -/
def mult [Zero α] [Add α] [Mul α] (D : Dense α) (input output : List α) : Res (List α) := do
  cassert ((input.length : Int) = D.cols)
  cassert ((output.length : Int) = D.rows)
  let output := List.replicate output.length (0 : α)
  forUp 0 D.cols output (fun j output =>
    forUp 0 D.rows output (fun i output => do
      let a ← D.get i j
      let x ← vrd input j
      let old ← vrd output i
      vwr output i (old + a * x)))

/-- `Mult(const VectorView<T>& input)` (include/densematrix.hpp:646-653). -/
def multVec [Zero α] [Add α] [Mul α] (D : Dense α) (input : List α) : Res (List α) := do
  let output ← mkVec D.rows (0 : α)
  D.mult input output

/-- `MultAT(const VectorView<T>& input, VectorView<U> output)` (include/densematrix.hpp:681-698). -/
def multAT [Zero α] [Add α] [Mul α] (D : Dense α) (input output : List α) : Res (List α) := do
  cassert ((input.length : Int) = D.rows)
  cassert ((output.length : Int) = D.cols)
  forUp 0 D.cols output (fun j output => do
    let val ← forUp 0 D.rows (0 : α) (fun i val => do
      let a ← D.get i j
      let x ← vrd input i
      .ok (val + a * x))
    vwr output j val)

/-- `MultAT(const VectorView<T>& input)` (include/densematrix.hpp:672-679). -/
def multATVec [Zero α] [Add α] [Mul α] (D : Dense α) (input : List α) : Res (List α) := do
  let output ← mkVec D.cols (0 : α)
  D.multAT input output

/-! ## Products with dense matrices through BLAS -/

/-- The value `op(A)(i, l)` as `dgemm` reads it from a column-major buffer with leading dimension `lda`. -/
def blasAt (trans : Bool) (A : List α) (lda : Int) (i l : Int) : Res α :=
  if trans then rd A (l + i * lda) else rd A (i + l * lda)

/-- Reference semantics of BLAS `dgemm_` with `alpha = 1`, `beta = 0` (external; declared at
src/densematrix.cpp:5-9).  Follows the published routine: illegal leading dimensions are reported through
`XERBLA`, which stops the program (`threw`); otherwise `C := op(A) op(B)`, every element of the three buffers
being accessed at its flat column-major address. -/
def dgemm [Zero α] [Add α] [Mul α] (transA transB : Bool) (m n k : Int) (A : List α) (lda : Int)
    (B : List α) (ldb : Int) (C : List α) (ldc : Int) : Res (List α) := do
  cverify (m ≥ 0 ∧ n ≥ 0 ∧ k ≥ 0)
  cverify (lda ≥ 1 ∧ lda ≥ (if transA then k else m))
  cverify (ldb ≥ 1 ∧ ldb ≥ (if transB then n else k))
  cverify (ldc ≥ 1 ∧ ldc ≥ m)
  forUp 0 n C (fun j C =>
    forUp 0 m C (fun i C => do
      let v ← forUp 0 k (0 : α) (fun l v => do
        let a ← blasAt transA A lda i l
        let b ← blasAt transB B ldb l j
        .ok (v + a * b))
      wr C (i + j * ldc) v))

/-- `DenseMatrix::dgemm` (src/densematrix.cpp:238-261). -/
def gemm [Zero α] [Add α] [Mul α] (D input output : Dense α) (AT BT : Bool) : Res (Dense α) := do
  let m := if AT then D.cols else D.rows
  let n := if BT then input.rows else input.cols
  let k := if AT then D.rows else D.cols
  let lda := D.rows
  let ldb := input.rows
  let output ← output.setSize m n
  let ldc := output.rows
  let c ← dgemm AT BT m n k D.data lda input.data ldb output.data ldc
  .ok { output with data := c }

/-- `Mult(const DenseMatrix& input, DenseMatrix& output)` (src/densematrix.cpp:202-209). -/
def multDInto [Zero α] [Add α] [Mul α] (D input output : Dense α) : Res (Dense α) := do
  cassert (D.cols = input.rows)
  D.gemm input output false false

/-- `MultAT(const DenseMatrix& input, DenseMatrix& output)` (src/densematrix.cpp:211-218). -/
def multATDInto [Zero α] [Add α] [Mul α] (D input output : Dense α) : Res (Dense α) := do
  cassert (D.rows = input.rows)
  D.gemm input output true false

/-- `MultBT(const DenseMatrix& input, DenseMatrix& output)` (src/densematrix.cpp:220-227). -/
def multBTDInto [Zero α] [Add α] [Mul α] (D input output : Dense α) : Res (Dense α) := do
  cassert (D.cols = input.cols)
  D.gemm input output false true

/-- `MultABT(const DenseMatrix& input, DenseMatrix& output)` (src/densematrix.cpp:229-236). -/
def multABTDInto [Zero α] [Add α] [Mul α] (D input output : Dense α) : Res (Dense α) := do
  cassert (D.rows = input.cols)
  D.gemm input output true true

/-- `Mult(const DenseMatrix& input)` (src/densematrix.cpp:170-176). -/
def multD [Zero α] [Add α] [Mul α] (D input : Dense α) : Res (Dense α) := do
  let output ← zeros D.rows input.cols
  D.multDInto input output

/-- `MultAT(const DenseMatrix& input)` (src/densematrix.cpp:178-184). -/
def multATD [Zero α] [Add α] [Mul α] (D input : Dense α) : Res (Dense α) := do
  let output ← zeros D.cols input.cols
  D.multATDInto input output

/-- `MultBT(const DenseMatrix& input)` (src/densematrix.cpp:186-192). -/
def multBTD [Zero α] [Add α] [Mul α] (D input : Dense α) : Res (Dense α) := do
  let output ← zeros D.rows input.rows
  D.multBTDInto input output

/-- `MultABT(const DenseMatrix& input)` (src/densematrix.cpp:194-200). -/
def multABTD [Zero α] [Add α] [Mul α] (D input : Dense α) : Res (Dense α) := do
  let output ← zeros D.cols input.rows
  D.multABTDInto input output

/-! ## Element-wise operators -/

/-- The loop shared by `operator-=` and `operator+=` (src/densematrix.cpp:263-291). -/
def zipUpdate (f : α → α → α) (D other : Dense α) : Res (Dense α) := do
  cassert (D.rows = other.rows)
  cassert (D.cols = other.cols)
  let data ← forUp 0 (D.rows * D.cols) D.data (fun i data => do
    let a ← rd data i
    let b ← rd other.data i
    wr data i (f a b))
  .ok { D with data := data }

/-- `operator-=(const DenseMatrix& other)` (src/densematrix.cpp:263-276), `operator-` (298-301). -/
def subAssign [Sub α] (D other : Dense α) : Res (Dense α) := zipUpdate (· - ·) D other

/-- `operator+=(const DenseMatrix& other)` (src/densematrix.cpp:278-291), `operator+` (293-296). -/
def addAssign [Add α] (D other : Dense α) : Res (Dense α) := zipUpdate (· + ·) D other

/-- `operator*=(double val)` (src/densematrix.cpp:303-311) and `operator*` (313-321). -/
def mulScalar [Mul α] (D : Dense α) (val : α) : Dense α := { D with data := D.data.map (· * val) }

/-- `operator/=(double val)` (src/densematrix.cpp:323-338). -/
def divScalar [Zero α] [Div α] [DecidableEq α] (D : Dense α) (val : α) : Res (Dense α) := do
  cassert (val ≠ 0)
  .ok { D with data := D.data.map (· / val) }

/-- `operator==(const DenseMatrix& other)` (src/densematrix.cpp:347-368); the early `return false` makes the
loop a conjunction.  `tol` is the constant 1e-12. -/
def eqTol [LinearOrder α] [AddGroup α] (tol : α) (D other : Dense α) : Res Bool := do
  if other.rows ≠ D.rows ∨ other.cols ≠ D.cols then .ok false
  else
    forUp 0 D.cols true (fun j good =>
      forUp 0 D.rows good (fun i good => do
        if good then
          let a ← D.get i j
          let b ← other.get i j
          .ok (!decide (|a - b| > tol))
        else .ok false))

/-- `Sum()` (include/densematrix.hpp:621-628). -/
def sum [Zero α] [Add α] (D : Dense α) : Res α := do
  cassert (D.data ≠ [])
  .ok (D.data.foldl (fun s d => s + d) 0)

/-- `std::max_element` on a non-empty range: the first largest element. -/
def maxElement [LinearOrder α] : List α → Option α
  | [] => none
  | x :: l => some (l.foldl (fun m y => if m < y then y else m) x)

/-- `std::min_element` on a non-empty range: the first smallest element. -/
def minElement [LinearOrder α] : List α → Option α
  | [] => none
  | x :: l => some (l.foldl (fun m y => if y < m then y else m) x)

/-- `Max()` (include/densematrix.hpp:630-636). -/
def max [LinearOrder α] (D : Dense α) : Res α :=
  match maxElement D.data with
  | some x => .ok x
  | none => .error .assertFail

/-- `Min()` (include/densematrix.hpp:638-644). -/
def min [LinearOrder α] (D : Dense α) : Res α :=
  match minElement D.data with
  | some x => .ok x
  | none => .error .assertFail

/-! ## Rows, columns and submatrices -/

/-- `GetCol(int col, VectorView<T>& vect)` (include/densematrix.hpp:725-735). -/
def getColInto (D : Dense α) (col : Int) (vect : List α) : Res (List α) := do
  cassert (col ≥ 0 ∧ col < D.cols)
  cassert ((vect.length : Int) = D.rows)
  forUp 0 D.rows vect (fun i vect => do
    let x ← D.get i col
    vwr vect i x)

/-- `GetRow(int row, VectorView<T>& vect)` (include/densematrix.hpp:737-747). -/
def getRowInto (D : Dense α) (row : Int) (vect : List α) : Res (List α) := do
  cassert (row ≥ 0 ∧ row < D.rows)
  cassert ((vect.length : Int) = D.cols)
  forUp 0 D.cols vect (fun i vect => do
    let x ← D.get row i
    vwr vect i x)

/-- `SetCol(int col, const VectorView<T>& vect)` (include/densematrix.hpp:767-777). -/
def setColVec (D : Dense α) (col : Int) (vect : List α) : Res (Dense α) := do
  cassert (col ≥ 0 ∧ col < D.cols)
  cassert ((vect.length : Int) = D.rows)
  forUp 0 D.rows D (fun i D => do
    let x ← vrd vect i
    D.put i col x)

/-- `SetRow(int row, const VectorView<T>& vect)` (include/densematrix.hpp:779-789). -/
def setRowVec (D : Dense α) (row : Int) (vect : List α) : Res (Dense α) := do
  cassert (row ≥ 0 ∧ row < D.rows)
  cassert ((vect.length : Int) = D.cols)
  forUp 0 D.cols D (fun i D => do
    let x ← vrd vect i
    D.put row i x)

/-- The five range assertions of `GetSubMatrix`, `SetSubMatrix` and `SetSubMatrixTranspose`
(src/densematrix.cpp:453-457, 509-513, 534-538). -/
def checkRange (D : Dense α) (si sj ei ej : Int) : Res Unit := do
  cassert (si ≥ 0 ∧ si < D.rows)
  cassert (sj ≥ 0 ∧ sj < D.cols)
  cassert (ei ≥ 0 ∧ ei ≤ D.rows)
  cassert (ej ≥ 0 ∧ ej ≤ D.cols)
  cassert (ei ≥ si ∧ ej ≥ sj)

/-- `GetSubMatrix(start_i, start_j, end_i, end_j, dense)` (src/densematrix.cpp:451-471). -/
def getSubMatrixInto [Zero α] (D : Dense α) (si sj ei ej : Int) (dense : Dense α) : Res (Dense α) := do
  D.checkRange si sj ei ej
  let numRows := ei - si
  let numCols := ej - sj
  let dense ← dense.setSize numRows numCols
  forUp 0 numCols dense (fun j dense =>
    forUp 0 numRows dense (fun i dense => do
      let x ← D.get (i + si) (j + sj)
      dense.put i j x))

/-- `GetSubMatrix(start_i, start_j, end_i, end_j)` (src/densematrix.cpp:440-449). -/
def getSubMatrix [Zero α] (D : Dense α) (si sj ei ej : Int) : Res (Dense α) := do
  let dense ← zeros (ei - si) (ej - sj)
  D.getSubMatrixInto si sj ei ej dense

/-- `GetSubMatrix(rows, cols, dense)` (src/densematrix.cpp:481-500). -/
def getSubMatrixIdxInto [Zero α] (D : Dense α) (rows cols : List Int) (dense : Dense α) :
    Res (Dense α) := do
  let dense ← dense.setSize rows.length cols.length
  let dense := dense.fill 0
  forUp 0 (cols.length : Int) dense (fun j dense => do
    let col ← rd cols j
    forUp 0 (rows.length : Int) dense (fun i dense => do
      let row ← rd rows i
      let x ← D.get row col
      dense.put i j x))

/-- `GetSubMatrix(rows, cols)` (src/densematrix.cpp:473-479). -/
def getSubMatrixIdx [Zero α] (D : Dense α) (rows cols : List Int) : Res (Dense α) :=
  D.getSubMatrixIdxInto rows cols empty

/-- `SetSubMatrix(start_i, start_j, end_i, end_j, dense)` (src/densematrix.cpp:507-525). -/
def setSubMatrixRange (D : Dense α) (si sj ei ej : Int) (dense : Dense α) : Res (Dense α) := do
  D.checkRange si sj ei ej
  let numRows := ei - si
  let numCols := ej - sj
  forUp 0 numCols D (fun j D =>
    forUp 0 numRows D (fun i D => do
      let x ← dense.get i j
      D.put (i + si) (j + sj) x))

/-- `SetSubMatrix(start_i, start_j, dense)` (src/densematrix.cpp:502-505). -/
def setSubMatrix (D : Dense α) (si sj : Int) (dense : Dense α) : Res (Dense α) :=
  D.setSubMatrixRange si sj (si + dense.rows) (sj + dense.cols) dense

/-- `SetSubMatrixTranspose(start_i, start_j, end_i, end_j, dense)` (src/densematrix.cpp:532-550). -/
def setSubMatrixTransposeRange (D : Dense α) (si sj ei ej : Int) (dense : Dense α) :
    Res (Dense α) := do
  D.checkRange si sj ei ej
  let numRows := ei - si
  let numCols := ej - sj
  forUp 0 numCols D (fun j D =>
    forUp 0 numRows D (fun i D => do
      let x ← dense.get j i
      D.put (i + si) (j + sj) x))

/-- `SetSubMatrixTranspose(start_i, start_j, dense)` (src/densematrix.cpp:527-530). -/
def setSubMatrixTranspose (D : Dense α) (si sj : Int) (dense : Dense α) : Res (Dense α) :=
  D.setSubMatrixTransposeRange si sj (si + dense.cols) (sj + dense.rows) dense

/-- `AddSubMatrix(rows, cols, dense)` (src/densematrix.cpp:552-567). -/
def addSubMatrix [Add α] (D : Dense α) (rows cols : List Int) (dense : Dense α) : Res (Dense α) := do
  cassert ((rows.length : Int) = dense.rows)
  cassert ((cols.length : Int) = dense.cols)
  forUp 0 dense.cols D (fun j D =>
    forUp 0 dense.rows D (fun i D => do
      let r ← rd rows i
      let c ← rd cols j
      let x ← dense.get i j
      let old ← D.get r c
      D.put r c (old + x)))

/-- `GetRow(int start, int end)` (src/densematrix.cpp:370-383). -/
def getRowRange [Zero α] (D : Dense α) (start stop : Int) : Res (Dense α) := do
  let dense ← zeros (stop - start) D.cols
  D.getSubMatrixInto start 0 stop D.cols dense

/-- `GetRow(const std::vector<int>& rows)` and its two-argument form (src/densematrix.cpp:385-411). -/
def getRowIdx [Zero α] (D : Dense α) (rows : List Int) : Res (Dense α) := do
  let dense ← zeros (rows.length : Int) D.cols
  cassert (dense.cols = D.cols)
  cassert (dense.rows = (rows.length : Int))
  forUp 0 (rows.length : Int) dense (fun i dense => do
    let row ← rd rows i
    forUp 0 D.cols dense (fun j dense => do
      let x ← D.get row j
      dense.put i j x))

/-- `SetRow(int start, const DenseMatrix& dense)` (src/densematrix.cpp:413-417). -/
def setRowBlock (D : Dense α) (start : Int) (dense : Dense α) : Res (Dense α) :=
  D.setSubMatrixRange start 0 (start + dense.rows) D.cols dense

/-- `GetCol(int start, int end)` (src/densematrix.cpp:419-432). -/
def getColRange [Zero α] (D : Dense α) (start stop : Int) : Res (Dense α) := do
  let dense ← zeros D.rows (stop - start)
  D.getSubMatrixInto 0 start D.rows stop dense

/-- `SetCol(int start, const DenseMatrix& dense)` (src/densematrix.cpp:434-438). -/
def setColBlock (D : Dense α) (start : Int) (dense : Dense α) : Res (Dense α) :=
  D.setSubMatrixRange 0 start D.rows (start + dense.cols) dense

/-- `GetDiag()` and `GetDiag(std::vector<double>& diag)` (src/densematrix.cpp:721-741). -/
def getDiag [Zero α] (D : Dense α) : Res (List α) := do
  cassert (D.rows = D.cols)
  let diag ← mkVec D.rows (0 : α)
  cassert ((diag.length : Int) = D.rows)
  forUp 0 D.rows diag (fun i diag => do
    let x ← D.get i i
    wr diag i x)

/-! ## Scaling -/

/-- `ScaleRows(const T& values)` (include/densematrix.hpp:791-801). -/
def scaleRows [Mul α] (D : Dense α) (values : List α) : Res (Dense α) :=
  forUp 0 D.cols D (fun j D =>
    forUp 0 D.rows D (fun i D => do
      let s ← rd values i
      let x ← D.get i j
      D.put i j (x * s)))

/-- `ScaleCols(const T& values)` (include/densematrix.hpp:803-815). -/
def scaleCols [Mul α] (D : Dense α) (values : List α) : Res (Dense α) :=
  forUp 0 D.cols D (fun j D => do
    let s ← rd values j
    forUp 0 D.rows D (fun i D => do
      let x ← D.get i j
      D.put i j (x * s)))

/-- `InverseScaleRows(const T& values)` (include/densematrix.hpp:817-829). -/
def inverseScaleRows [Zero α] [Div α] [DecidableEq α] (D : Dense α) (values : List α) :
    Res (Dense α) :=
  forUp 0 D.cols D (fun j D =>
    forUp 0 D.rows D (fun i D => do
      let s ← rd values i
      cassert (s ≠ 0)
      let x ← D.get i j
      D.put i j (x / s)))

/-- `InverseScaleCols(const T& values)` (include/densematrix.hpp:831-844). -/
def inverseScaleCols [Zero α] [Div α] [DecidableEq α] (D : Dense α) (values : List α) :
    Res (Dense α) :=
  forUp 0 D.cols D (fun j D => do
    let s ← rd values j
    cassert (s ≠ 0)
    forUp 0 D.rows D (fun i D => do
      let x ← D.get i j
      D.put i j (x / s)))

/-! ## Stacking -/

/-- `SumCols(const std::vector<T>& ops)` (include/operator.hpp:112-124). -/
def sumCols (ds : List (Dense α)) : Int := ds.foldl (fun t d => t + d.cols) 0

/-- `HStack(dense, output)` (src/densematrix.cpp:751-779). -/
def hstackInto [Zero α] (ds : List (Dense α)) (output : Dense α) : Res (Dense α) :=
  match ds with
  | [] => .ok output
  | d0 :: rest => do
    let ds := d0 :: rest
    let rows := d0.rows
    let _ ← ds.foldlM (fun (_ : Unit) mat => cassert (mat.rows = rows)) ()
    let cols := sumCols ds
    let output ← output.setSize rows cols
    let st ← ds.foldlM (fun st mat => do
      if mat.cols > 0 then
        let o ← st.1.setColBlock st.2 mat
        .ok (o, st.2 + mat.cols)
      else .ok st) (output, (0 : Int))
    .ok st.1

/-- `HStack(dense)` (src/densematrix.cpp:743-749). -/
def hstack [Zero α] (ds : List (Dense α)) : Res (Dense α) := hstackInto ds empty

end Dense
end Linalg
