import Verif.Model.Block

/-!
# Operator (include/operator.hpp, src/operator.cpp) and the free operators on vectors (include/vector.hpp)
-/

namespace Linalg
open Cpp

variable {α : Type}

/-! ## Operator -/

/-- `Operator(int rows, int cols)` (src/operator.cpp:18-23): the sizes. -/
def OpSize.make (rows cols : Int) : Res (Int × Int) := do
  cassert (rows ≥ 0)
  cassert (cols ≥ 0)
  .ok (rows, cols)

/-- `Operator(int size)` (src/operator.cpp:13-16). -/
def OpSize.square (size : Int) : Res (Int × Int) := OpSize.make size size

/-- `Operator()` (src/operator.cpp:8-11). -/
def OpSize.default : Res (Int × Int) := OpSize.square 0

/-- `Operator(Operator&& other)` (src/operator.cpp:32-37): the new sizes and what is left in `other`, which is the same. -/
def OpSize.moved (other : Int × Int) : Res ((Int × Int) × (Int × Int)) := do
  cassert (other.1 ≥ 0)
  cassert (other.2 ≥ 0)
  .ok ((other.1, other.2), other)

/-- An operator whose class only overrides `Mult`: `MultAT` is the one of `Operator` (include/operator.hpp:106-110), which throws. -/
def Op.ofMult (rows cols : Int) (mult : List α → List α → Res (List α)) : Op α :=
  ⟨rows, cols, mult, fun _ _ => .error .threw⟩

/-- `Operator::Mult(input)` (src/operator.cpp:67-73). -/
def Op.multVec [Zero α] (op : Op α) (input : List α) : Res (List α) := do
  let output ← mkVec op.rows (0 : α)
  op.multResize input output

/-- `Operator::MultAT(input)` (src/operator.cpp:82-88). -/
def Op.multATVec [Zero α] (op : Op α) (input : List α) : Res (List α) := do
  let output ← mkVec op.cols (0 : α)
  op.multATResize input output

/-- `Operator::InnerProduct(x, y)` (src/operator.cpp:90-93). -/
def Op.innerProduct [Zero α] [Add α] [Mul α] (op : Op α) (x y : List α) : Res α := do
  let t ← op.multVec x
  Vec.inner y t

/-- `SumRows(const std::vector<T>& ops)` (include/operator.hpp:126-138). -/
def Op.sumRows (ops : List (Op α)) : Int := ops.foldl (fun total op => total + op.rows) 0

/-- `SumCols(const std::vector<T>& ops)` (include/operator.hpp:112-124). -/
def Op.sumCols (ops : List (Op α)) : Int := ops.foldl (fun total op => total + op.cols) 0

/-- An operator with the virtual function on views of one memory. -/
structure OpView (α : Type) where
  rows : Int
  cols : Int
  mult : View → View → List α → Res (List α)

/-- `op.Mult(x, x)` with one `Vector` twice (src/operator.cpp:60-65): the first argument is a view of the vector, which `SetSize` sets anew. -/
def OpView.multSelf [Zero α] (op : OpView α) (x : List α) : Res (List α) := do
  let x ← Vec.setSize x op.rows 0
  op.mult ⟨0, x.length⟩ ⟨0, x.length⟩ x

/-! ## Operators on vectors

The left argument is a copy, the right one another vector: the memory is the one after the other. -/

namespace Vec

/-- `vect * val` (include/vector.hpp:246-251) and `val * vect` (include/vector.hpp:258-263): both are `vect *= val`. -/
def timesScalar [Mul α] (x : List α) (val : α) : Res (List α) := View.scale ⟨0, x.length⟩ val x

/-- `vect / val` (include/vector.hpp:270-275). -/
def overScalar [Zero α] [Div α] [DecidableEq α] (x : List α) (val : α) : Res (List α) := View.divScalar ⟨0, x.length⟩ val x

/-- `val / vect` (include/vector.hpp:282-291).  Nothing is asserted: a zero element leaves the model (infinity for `double`). -/
def scalarOver [Zero α] [Div α] [DecidableEq α] (val : α) (x : List α) : Res (List α) :=
  forUp 0 (x.length : Int) x (fun i x => do
    let a ← rd x i
    if a = 0 then .error .divZero else wr x i (val / a))

/-- `lhs + rhs` (include/vector.hpp:298-303). -/
def plus [Add α] (x y : List α) : Res (List α) := do
  let m ← View.addAssign ⟨0, x.length⟩ ⟨x.length, y.length⟩ (x ++ y)
  .ok (m.take x.length)

/-- `lhs - rhs` (include/vector.hpp:310-315). -/
def minus [Sub α] (x y : List α) : Res (List α) := do
  let m ← View.subAssign ⟨0, x.length⟩ ⟨x.length, y.length⟩ (x ++ y)
  .ok (m.take x.length)

end Vec
end Linalg
