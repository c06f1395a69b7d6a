import Verif.Model.ReleaseDense2
import Verif.Model.Util

/-!
# Extremes, selections, stacking and timers with and without NDEBUG

As in `Model/View`, `Model/Dense` and `Model/Util`, with the build as a parameter.  `*std::max_element(first, last)` of an empty range dereferences `last`: the
element behind the memory is read.
-/

namespace Linalg
namespace Rel
open Cpp

variable {α : Type}

/-- `Max(vect)` (include/vectorview.hpp:696-702). -/
def vmax [LinearOrder α] (b : Build) (x : List α) : Res α := do
  b.assert (x.length > 0)
  match x with
  | [] => .error .outOfBounds
  | a :: l => .ok (Vec.maxElement (fun a b => a < b) a l)

/-- `Min(vect)` (include/vectorview.hpp:708-714). -/
def vmin [LinearOrder α] (b : Build) (x : List α) : Res α := do
  b.assert (x.length > 0)
  match x with
  | [] => .error .outOfBounds
  | a :: l => .ok (Vec.minElement (fun a b => a < b) a l)

/-- `AbsMax(vect)` (include/vectorview.hpp:679-690). -/
def vabsMax [LinearOrder α] [AddGroup α] (b : Build) (x : List α) : Res α := do
  b.assert (x.length > 0)
  match x with
  | [] => .error .outOfBounds
  | a :: l => .ok |Vec.maxElement (fun a b => |a| < |b|) a l|

/-- `AbsMin(vect)` (include/vectorview.hpp:720-731). -/
def vabsMin [LinearOrder α] [AddGroup α] (b : Build) (x : List α) : Res α := do
  b.assert (x.length > 0)
  match x with
  | [] => .error .outOfBounds
  | a :: l => .ok |Vec.minElement (fun a b => |a| < |b|) a l|

/-- `DenseMatrix::Sum()` (include/densematrix.hpp:621-628). -/
def dsum [Zero α] [Add α] (b : Build) (D : Dense α) : Res α := do
  b.assert (D.data ≠ [])
  .ok (D.data.foldl (fun s d => s + d) 0)

/-- `DenseMatrix::Max()` (include/densematrix.hpp:630-636). -/
def dmax [LinearOrder α] (b : Build) (D : Dense α) : Res α := do
  b.assert (D.data.length ≠ 0)
  match Dense.maxElement D.data with
  | some x => .ok x
  | none => .error .outOfBounds

/-- `DenseMatrix::Min()` (include/densematrix.hpp:638-644). -/
def dmin [LinearOrder α] (b : Build) (D : Dense α) : Res α := do
  b.assert (D.data.length ≠ 0)
  match Dense.minElement D.data with
  | some x => .ok x
  | none => .error .outOfBounds

/-- `GetSubVector(indices, vect)` (include/vectorview.hpp:351-365). -/
def getSubVector [Zero α] (b : Build) (x : List α) (indices : List Int) (vect : List α) : Res (List α) := do
  let vect ← Vec.setSize vect indices.length 0
  forUp 0 (indices.length : Int) vect (fun i vect => do
    let k ← rd indices i
    b.assert (k ≥ 0)
    b.assert (k < x.length)
    let a ← vrd b x k
    vwr b vect i a)

/-- `Timer::operator[](int index)` (src/timer.cpp:30-37). -/
def timerGet [Sub α] (b : Build) (T : Util.Timer α) (index : Int) : Res α := do
  b.assert (index ≥ 0)
  b.assert (index < (T.times.length : Int) - 1)
  let b ← rd T.times (index + 1)
  let a ← rd T.times index
  .ok (b - a)

/-- `GetRow(const std::vector<int>& rows)` (src/densematrix.cpp:385-411). -/
def dgetRowIdx [Zero α] (b : Build) (D : Dense α) (rows : List Int) : Res (Dense α) := do
  let dense ← Dense.zeros (rows.length : Int) D.cols
  b.assert (dense.cols = D.cols)
  b.assert (dense.rows = (rows.length : Int))
  forUp 0 (rows.length : Int) dense (fun i dense => do
    let row ← rd rows i
    forUp 0 D.cols dense (fun j dense => do
      let x ← dget b D row j
      dput b dense i j x))

/-- `SetCol(int start, const DenseMatrix& dense)` (src/densematrix.cpp:434-438) with `SetSubMatrix` (507-525). -/
def dsetColBlock (b : Build) (D : Dense α) (start : Int) (dense : Dense α) : Res (Dense α) := do
  drange b D 0 start D.rows (start + dense.cols)
  forUp 0 (start + dense.cols - start) D (fun j E =>
    forUp 0 (D.rows - 0) E (fun i E => do
      let x ← dget b dense i j
      dput b E (i + 0) (j + start) x))

/-- `HStack(dense, output)` (src/densematrix.cpp:751-779). -/
def hstackInto [Zero α] (b : Build) (ds : List (Dense α)) (output : Dense α) : Res (Dense α) :=
  match ds with
  | [] => .ok output
  | d0 :: rest => do
    let ds := d0 :: rest
    let rows := d0.rows
    let _ ← ds.foldlM (fun (_ : Unit) mat => b.assert (mat.rows = rows)) ()
    let cols := Dense.sumCols ds
    let output ← output.setSize rows cols
    let st ← ds.foldlM (fun st mat => do
      if mat.cols > 0 then
        let o ← dsetColBlock b st.1 st.2 mat
        .ok (o, st.2 + mat.cols)
      else .ok st) (output, (0 : Int))
    .ok st.1

end Rel
end Linalg
