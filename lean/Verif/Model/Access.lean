import Verif.Model.Coo
import Verif.Model.Lil
import Verif.Model.View

/-!
# Access to the arrays of a matrix, and overloads that fill in an argument

`GetIndicesView(row)` is a view whose memory is the array `indices_`; `GetIndptr()`, `GetIndices()` and `GetData()` without an argument are
references to the arrays themselves.
-/

namespace Linalg
open Cpp

variable {α : Type}

namespace Csr

/-- `GetIndicesView(int row)` (include/sparsematrix.hpp:970-1000), both overloads: a view into `indices_`. -/
def getIndicesView (A : Csr α) (row : Int) : Res View := do
  cassert (row ≥ 0 ∧ row < A.rows)
  let start ← rd A.indptr row
  let stop ← rd A.indptr (row + 1)
  cassert (stop - start ≥ 0)
  .ok ⟨start, stop - start⟩

/-- `A.GetIndicesView(row)[k] = c` (include/sparsematrix.hpp:972-985, include/vectorview.hpp:319-325). -/
def setIndex (A : Csr α) (row k c : Int) : Res (Csr α) := do
  let v ← A.getIndicesView row
  let idx ← v.put A.indices k c
  .ok { A with indices := idx }

/-- `A.GetData()[A.GetIndptr()[row] + k] = x` (include/sparsematrix.hpp:918-923, 953-958): elements of `std::vector`. -/
def setData (A : Csr α) (row k : Int) (x : α) : Res (Csr α) := do
  let start ← rd A.indptr row
  let d ← wr A.data (start + k) x
  .ok { A with data := d }

/-- `SparseMatrix(int size)` (include/sparsematrix.hpp:451-456). -/
def square (size : Int) : Res (Csr α) := zero size size

end Csr

/-- `CooMatrix(int size)` (include/coomatrix.hpp:263-267). -/
def Coo.square (size : Int) : Res (Coo α) := Coo.ofSize size size

/-- `Reserve(int size)` (include/coomatrix.hpp:317-323): the matrix is the same. -/
def Coo.reserve (C : Coo α) (size : Int) : Res (Coo α) := do
  cassert (size ≥ 0)
  .ok C

/-- `LilMatrix(int size)` (include/lilmatrix.hpp:187-191). -/
def Lil.square (size : Int) : Res (Lil α) := Lil.ofSize size size

namespace Dense

/-- `DenseMatrix(int size)` (src/densematrix.cpp:36-39). -/
def square [Zero α] (size : Int) : Res (Dense α) := zeros size size

/-- `SetSize(int size)` (src/densematrix.cpp:85-88). -/
def setSizeSquare [Zero α] (D : Dense α) (size : Int) : Res (Dense α) := D.setSize size size

/-- `SetSize(int size, double val)` (src/densematrix.cpp:100-103). -/
def setSizeSquareVal (D : Dense α) (size : Int) (val : α) : Res (Dense α) := D.setSizeVal size size val

/-- `CopyData(std::vector<double>& data)` (src/densematrix.cpp:79-83). -/
def copyData [Zero α] (D : Dense α) (data : List α) : Res (List α) := do
  let data := resize data D.data.length 0
  forUp 0 (D.data.length : Int) data (fun i data => do
    let x ← rd D.data i
    wr data i x)

/-- `GetCol(int col, VectorView<double>& vect)` of a matrix that is not constant (include/densematrix.hpp:717-723): the assignment of a view
copies the elements (include/vectorview.hpp:259-268).  The target is a vector of its own. -/
def getColAssign (D : Dense α) (col : Int) (vect : List α) : Res (List α) := do
  cassert (col ≥ 0 ∧ col < D.cols)
  let m ← View.assign ⟨D.data.length, vect.length⟩ ⟨col * D.rows, D.rows⟩ (D.data ++ vect)
  .ok (m.drop D.data.length)

/-- `GetCol(int col)` (include/densematrix.hpp:749-756). -/
def getColNew [Zero α] (D : Dense α) (col : Int) : Res (List α) := do
  let vect ← mkVec D.rows 0
  D.getColInto col vect

/-- `GetRow(int row)` (include/densematrix.hpp:758-765). -/
def getRowNew [Zero α] (D : Dense α) (row : Int) : Res (List α) := do
  let vect ← mkVec D.cols 0
  D.getRowInto row vect

end Dense

/-- `GetSubVector(indices)` (include/vectorview.hpp:341-349). -/
def Vec.getSubVectorNew [Zero α] (x : List α) (indices : List Int) : Res (List α) := do
  let vect ← mkVec (indices.length : Int) 0
  Vec.getSubVector x indices vect

end Linalg
