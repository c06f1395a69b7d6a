import Verif.Model.ParVec

/-!
# Which `Mult` runs: distributed vectors seen through `VectorView`

`VectorView::Mult` and `VectorView::L2Norm` are virtual (include/vectorview.hpp:133, 171).  `Vector` overrides `Mult` with the sum of
its own elements (include/vector.hpp:106, 112-116); `ParVector` overrides both with a sum over all processes
(modules/parlinalgcpp/src/parvector.cpp:153-161, 204-207).  Functions that take a `const VectorView<double>&` therefore do different things
for the two; functions that take a `VectorView<double>` by value get a plain view of the elements of one process.

As elsewhere, all processes are modelled together, with one list element per process.  Simplification: the argument has the same type on
all processes, and all `ParVector`s use the communicator that is passed to `ParMult` and `ParL2Norm`.
-/

namespace Linalg
open Cpp

variable {α : Type}

/-- What a `const VectorView<double>&` refers to on all processes: `par` tells a `ParVector` from a `Vector` or a plain view, `shares` are
the elements each process stores. -/
structure Seen (α : Type) where
  par : Bool
  shares : List (List α)
  deriving DecidableEq

namespace Seen

/-- `lhs.Mult(rhs)`, chosen by the type of `lhs`: `VectorView::Mult` (include/vectorview.hpp:467-475), `Vector::Mult`
(include/vector.hpp:112-116) or `ParVector::Mult` (modules/parlinalgcpp/src/parvector.cpp:153-161). -/
def mult [Zero α] [Add α] [Mul α] (lhs rhs : Seen α) : Res (List α) := do
  let localSum ← (lhs.shares.zip rhs.shares).mapM (fun p => Vec.inner p.1 p.2)
  .ok (if lhs.par then mpiAllreduceSum localSum else localSum)

/-- `InnerProduct(lhs, rhs)` (include/vectorview.hpp:455-459) and `lhs * rhs` (502-506). -/
def innerProduct [Zero α] [Add α] [Mul α] (lhs rhs : Seen α) : Res (List α) := mult lhs rhs

/-- `vect.L2Norm()`: `VectorView::L2Norm` (include/vectorview.hpp:461-465) and `ParVector::L2Norm`
(modules/parlinalgcpp/src/parvector.cpp:204-207); also `L2Norm(vect)` for both types (include/vectorview.hpp:491-495, parvector.cpp:224-227). -/
def l2Norm [Zero α] [Add α] [Mul α] (sqrt : α → α) (vect : Seen α) : Res (List α) := do
  let s ← mult vect vect
  .ok (s.map sqrt)

/-- `ParMult(comm, lhs, rhs)` (modules/parlinalgcpp/src/parvector.cpp:229-237). -/
def parMult [Zero α] [Add α] [Mul α] (lhs rhs : Seen α) : Res (List α) := do
  let localSum ← mult lhs rhs
  .ok (mpiAllreduceSum localSum)

/-- `ParL2Norm(comm, vect)` (modules/parlinalgcpp/src/parvector.cpp:214-222). -/
def parL2Norm [Zero α] [Add α] [Mul α] (sqrt : α → α) (vect : Seen α) : Res (List α) := do
  let localSum ← mult vect vect
  .ok ((mpiAllreduceSum localSum).map sqrt)

/-- `A.InnerProduct(x, y)` (src/operator.cpp:90-93): the product is a `Vector<double>`, and `y` chooses the `Mult`.  `apply` is what
`A.Mult` computes on all processes. -/
def opInnerProduct [Zero α] [Add α] [Mul α] (apply : List (List α) → Res (List (List α))) (x y : Seen α) : Res (List α) := do
  let ax ← apply x.shares
  mult y ⟨false, ax⟩

/-- `Normalize(vect)` (src/vectorview.cpp:39-42) and `vect.Normalize()` (49-53): the argument is a `VectorView<double>` by value, so a
`ParVector` is sliced to a view of the elements of one process. -/
def normalize [Field α] [DecidableEq α] (sqrt : α → α) (vect : Seen α) : Res (Seen α) := do
  let shares ← vect.shares.mapM (fun s => (View.mk 0 s.length).normalize sqrt s)
  .ok ⟨vect.par, shares⟩

/-- `Sum(vect)` (include/vectorview.hpp:737-741): not virtual, on each process its own elements. -/
def sum [Zero α] [Add α] (vect : Seen α) : List α := vect.shares.map Vec.sum

/-- `Mean(vect)` (include/vectorview.hpp:747-751): the mean of the elements of each process. -/
def mean [Field α] (vect : Seen α) : Res (List α) := vect.shares.mapM Vec.mean

/-- `SubAvg(VectorView<double> vect)` (src/vectorview.cpp:44-47): by value, on each process its own mean.  This is the overload that is
chosen for a `ParVector` behind a `VectorView<double>&`. -/
def subAvg [Field α] (vect : Seen α) : Res (Seen α) := do
  let shares ← vect.shares.mapM (fun s => (View.mk 0 s.length).subAvg s)
  .ok ⟨vect.par, shares⟩

end Seen

end Linalg
