import Verif.Model.Dense
import Mathlib.Algebra.Field.Defs
import Mathlib.Algebra.Order.Group.Abs

/-!
# VectorView, Vector, BlockVector (include/vectorview.hpp, src/vectorview.cpp, include/vector.hpp,
include/blockvector.hpp)

A view is a pointer and a length.  Pointers are positions in one memory, a list of elements, so that views may
coincide, be apart or overlap.  Operations that write take the memory and return the new one.  Operations that
only read take the elements of their arguments as lists.
-/

namespace Linalg
open Cpp

/-- `VectorView<T>`: `data_`, `size_` (include/vectorview.hpp:191-193). -/
structure View where
  off : Int
  size : Int
  deriving DecidableEq, Repr

namespace View
variable {α : Type}

/-- `operator[]`, reading (include/vectorview.hpp:327-333): only the upper bound is asserted. -/
def get (v : View) (m : List α) (i : Int) : Res α := do
  cassert (i < v.size)
  rd m (v.off + i)

/-- `operator[]`, writing (include/vectorview.hpp:319-325). -/
def put (v : View) (m : List α) (i : Int) (x : α) : Res (List α) := do
  cassert (i < v.size)
  wr m (v.off + i) x

/-- `std::copy` from one view to another: undefined if the target starts inside the source.  Equal pointers are
treated as no change (what every implementation does for arithmetic types). -/
def copy (dst src : View) (m : List α) : Res (List α) :=
  if src.off < dst.off ∧ dst.off < src.off + src.size then .error .undefinedBehaviour
  else forUp 0 src.size m (fun i m => do
    let x ← rd m (src.off + i)
    wr m (dst.off + i) x)

/-- `operator=(const VectorView&)` and its overloads, and `Set(rhs)`
(include/vectorview.hpp:245-278, 435-441). -/
def assign (x y : View) (m : List α) : Res (List α) := do
  cassert (y.size = x.size)
  copy x y m

/-- `operator=(T val)` (include/vectorview.hpp:287-293). -/
def fill (x : View) (val : α) (m : List α) : Res (List α) :=
  forUp 0 x.size m (fun i m => wr m (x.off + i) val)

/-- `Add(double alpha, const VectorView& rhs)` (include/vectorview.hpp:380-391). -/
def addScaled [Add α] [Mul α] (x : View) (alpha : α) (y : View) (m : List α) : Res (List α) := do
  cassert (y.size = x.size)
  forUp 0 x.size m (fun i m => do
    let b ← y.get m i
    let a ← rd m (x.off + i)
    wr m (x.off + i) (a + alpha * b))

/-- `Sub(double alpha, const VectorView& rhs)` (include/vectorview.hpp:401-412). -/
def subScaled [Sub α] [Mul α] (x : View) (alpha : α) (y : View) (m : List α) : Res (List α) := do
  cassert (y.size = x.size)
  forUp 0 x.size m (fun i m => do
    let b ← y.get m i
    let a ← rd m (x.off + i)
    wr m (x.off + i) (a - alpha * b))

/-- `Set(double alpha, const VectorView& rhs)` (include/vectorview.hpp:422-433). -/
def setScaled [Mul α] (x : View) (alpha : α) (y : View) (m : List α) : Res (List α) := do
  cassert (y.size = x.size)
  forUp 0 x.size m (fun i m => do
    let b ← y.get m i
    wr m (x.off + i) (alpha * b))

/-- `lhs += rhs` and `Add(rhs)` (include/vectorview.hpp:552-565, 393-399). -/
def addAssign [Add α] (x y : View) (m : List α) : Res (List α) := do
  cassert (x.size = y.size)
  forUp 0 x.size m (fun i m => do
    let b ← y.get m i
    let a ← x.get m i
    x.put m i (a + b))

/-- `lhs -= rhs` and `Sub(rhs)` (include/vectorview.hpp:571-584, 414-420). -/
def subAssign [Sub α] (x y : View) (m : List α) : Res (List α) := do
  cassert (x.size = y.size)
  forUp 0 x.size m (fun i m => do
    let b ← y.get m i
    let a ← x.get m i
    x.put m i (a - b))

/-- `lhs *= rhs`, entry by entry (include/vectorview.hpp:512-525). -/
def mulAssign [Mul α] (x y : View) (m : List α) : Res (List α) := do
  cassert (x.size = y.size)
  forUp 0 x.size m (fun i m => do
    let b ← y.get m i
    let a ← x.get m i
    x.put m i (a * b))

/-- `lhs /= rhs`, entry by entry (include/vectorview.hpp:531-546). -/
def divAssign [Zero α] [Div α] [DecidableEq α] (x y : View) (m : List α) : Res (List α) := do
  cassert (x.size = y.size)
  forUp 0 x.size m (fun i m => do
    let b ← y.get m i
    cassert (b ≠ 0)
    let a ← x.get m i
    x.put m i (a / b))

/-- `vect *= val` (include/vectorview.hpp:590-599). -/
def scale [Mul α] (x : View) (val : α) (m : List α) : Res (List α) :=
  forUp 0 x.size m (fun i m => do
    let a ← rd m (x.off + i)
    wr m (x.off + i) (a * val))

/-- `vect /= val` (include/vectorview.hpp:605-616). -/
def divScalar [Zero α] [Div α] [DecidableEq α] (x : View) (val : α) (m : List α) : Res (List α) := do
  cassert (val ≠ 0)
  forUp 0 x.size m (fun i m => do
    let a ← rd m (x.off + i)
    wr m (x.off + i) (a / val))

/-- `lhs += val` (include/vectorview.hpp:622-631). -/
def addScalar [Add α] (x : View) (val : α) (m : List α) : Res (List α) :=
  forUp 0 x.size m (fun i m => do
    let a ← rd m (x.off + i)
    wr m (x.off + i) (a + val))

/-- `lhs -= val` (include/vectorview.hpp:637-646). -/
def subScalar [Sub α] (x : View) (val : α) (m : List α) : Res (List α) :=
  forUp 0 x.size m (fun i m => do
    let a ← rd m (x.off + i)
    wr m (x.off + i) (a - val))

/-- `Add(alpha, x, beta, y, gamma, z)` (include/vectorview.hpp:819-831). -/
def combine [Add α] [Mul α] (alpha : α) (x : View) (beta : α) (y : View) (gamma : α) (z : View) (m : List α) :
    Res (List α) := do
  cassert (y.size = x.size)
  cassert (z.size = x.size)
  forUp 0 x.size m (fun i m => do
    let a ← x.get m i
    let b ← y.get m i
    let c ← z.get m i
    z.put m i ((alpha * a) + (beta * b) + (gamma * c)))

/-- `Add(x, y, z)` (include/vectorview.hpp:838-842). -/
def add3 [Zero α] [One α] [Add α] [Mul α] (x y z : View) (m : List α) : Res (List α) := combine 1 x 1 y 0 z m

/-- `Sub(x, y, z)` (include/vectorview.hpp:849-853). -/
def sub3 [Zero α] [One α] [Add α] [Mul α] [Neg α] (x y z : View) (m : List α) : Res (List α) :=
  combine 1 x (-1) y 0 z m

end View

/-! ## Reading functions -/

namespace Vec
variable {α : Type}

/-- `Sum()` (include/vectorview.hpp:443-448, 737-741). -/
def sum [Zero α] [Add α] (x : List α) : α := x.foldl (fun s a => s + a) 0

/-- `Mult(vect)` (include/vectorview.hpp:467-475), `InnerProduct(lhs, rhs)` (455-459), `operator*` (502-506). -/
def inner [Zero α] [Add α] [Mul α] (x y : List α) : Res α := do
  cassert (y.length = x.length)
  .ok ((x.zip y).foldl (fun s p => s + p.1 * p.2) 0)

/-- `std::max_element(first, last, less)`: the first element that no later one exceeds; the range is non-empty. -/
def maxElement (less : α → α → Bool) (first : α) (rest : List α) : α :=
  rest.foldl (fun best a => if less best a then a else best) first

/-- `std::min_element(first, last, less)`. -/
def minElement (less : α → α → Bool) (first : α) (rest : List α) : α :=
  rest.foldl (fun best a => if less a best then a else best) first

/-- `Max(vect)` (include/vectorview.hpp:696-702). -/
def max [LinearOrder α] (x : List α) : Res α :=
  match x with
  | [] => .error .assertFail
  | a :: l => .ok (maxElement (fun a b => a < b) a l)

/-- `Min(vect)` (include/vectorview.hpp:708-714). -/
def min [LinearOrder α] (x : List α) : Res α :=
  match x with
  | [] => .error .assertFail
  | a :: l => .ok (minElement (fun a b => a < b) a l)

/-- `AbsMax(vect)` (include/vectorview.hpp:679-690). -/
def absMax [LinearOrder α] [AddGroup α] (x : List α) : Res α :=
  match x with
  | [] => .error .assertFail
  | a :: l => .ok |maxElement (fun a b => |a| < |b|) a l|

/-- `AbsMin(vect)` (include/vectorview.hpp:720-731). -/
def absMin [LinearOrder α] [AddGroup α] (x : List α) : Res α :=
  match x with
  | [] => .error .assertFail
  | a :: l => .ok |minElement (fun a b => |a| < |b|) a l|

/-- `Mean(vect)` (include/vectorview.hpp:747-751). -/
def mean [Field α] (x : List α) : Res α :=
  if x.length = 0 then .error .divZero else .ok (sum x / (x.length : α))

/-- `operator==` (include/vectorview.hpp:653-673) with the tolerance as a parameter; the code uses `1e-12`. -/
def eqTol [LinearOrder α] [AddGroup α] (tol : α) (x y : List α) : Res Bool :=
  if x.length ≠ y.length then .ok false
  else do
    let bad ← forUp 0 (x.length : Int) false (fun i bad =>
      if bad then .ok true
      else do
        let a ← vrd x i
        let b ← vrd y i
        .ok (decide (|a - b| > tol)))
    .ok (!bad)

/-- `Vector::SetSize(int size, T val)` (include/vector.hpp:189-200); `SetSize(int size)` (176-187) is the case of
the value-initialised element. -/
def setSize (x : List α) (size : Int) (val : α) : Res (List α) :=
  if size ≠ x.length then do
    cassert (size ≥ 0)
    .ok (resize x size.toNat val)
  else .ok x

/-- `GetSubVector(indices, vect)` (include/vectorview.hpp:351-365). -/
def getSubVector [Zero α] (x : List α) (indices : List Int) (vect : List α) : Res (List α) := do
  let vect ← setSize vect indices.length 0
  forUp 0 (indices.length : Int) vect (fun i vect => do
    let k ← rd indices i
    cassert (k ≥ 0)
    cassert (k < x.length)
    let a ← vrd x k
    vwr vect i a)

end Vec

/-- `SubAvg(vect)` (src/vectorview.cpp:44-47). -/
def View.subAvg {α : Type} [Field α] (x : View) (m : List α) : Res (List α) := do
  let elems ← (iota x.size.toNat).mapM (fun i => rd m (x.off + i))
  let mu ← Vec.mean elems
  x.subScalar mu m

/-- `L2Norm(vect)` (include/vectorview.hpp:461-465); `std::sqrt` is a parameter. -/
def Vec.l2Norm {α : Type} [Zero α] [Add α] [Mul α] (sqrt : α → α) (x : List α) : Res α := do
  let s ← Vec.inner x x
  .ok (sqrt s)

/-- `Normalize(vect)` (src/vectorview.cpp:39-42). -/
def View.normalize {α : Type} [Field α] [DecidableEq α] (sqrt : α → α) (x : View) (m : List α) : Res (List α) := do
  let elems ← (iota x.size.toNat).mapM (fun i => rd m (x.off + i))
  let nrm ← Vec.l2Norm sqrt elems
  x.divScalar nrm m

/-! ## Views of parts -/

/-- `BlockVector::GetBlock(int block)` (include/blockvector.hpp:130-139); `v` is the vector itself. -/
def View.getBlock (v : View) (offsets : List Int) (block : Int) : Res View := do
  cassert (block < (offsets.length : Int) - 1)
  let a ← rd offsets block
  let b ← rd offsets (block + 1)
  cassert (b - a ≥ 0)
  .ok ⟨v.off + a, b - a⟩

/-- `DenseMatrix::GetColView(int col)` (include/densematrix.hpp:700-706): the view into `data_`, whose memory is
`D.data`. -/
def Dense.getColView {α : Type} (D : Dense α) (col : Int) : Res View := do
  cassert (col ≥ 0 ∧ col < D.cols)
  .ok ⟨col * D.rows, D.rows⟩

end Linalg
