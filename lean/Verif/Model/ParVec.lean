import Verif.Model.ParTranspose
import Verif.Model.View

/-!
# Distributed vectors, and what a distributed matrix does to them (modules/parlinalgcpp)

Functions that communicate are modelled for all processes together, as in `Verif.Model.Par`; a list has one element per process, in rank
order.  MPI: `MPI_Allreduce` gives every process the reduction of the values all processes pass.  hypre: the two vector products
`hypre_ParCSRMatrixMatvec` and `hypre_ParCSRMatrixMatvecT` are parameters.  The line that `ParVector(comm, val, part)` prints is not
modelled.
-/

namespace Linalg
open Cpp

variable {α : Type}

/-- `MPI_Allreduce(..., MPI_SUM, comm)`: the received values. -/
def mpiAllreduceSum [Zero α] [Add α] (vals : List α) : List α := vals.map (fun _ => vals.foldr (· + ·) 0)

/-- `MPI_Allreduce(..., MPI_MAX, comm)`: the received values. -/
def mpiAllreduceMax [LinearOrder α] (vals : List α) : List α :=
  match vals with
  | [] => []
  | v :: vs => vals.map (fun _ => vs.foldl (fun a b => Max.max a b) v)

/-- `class ParVector` on one process (modules/parlinalgcpp/include/parvector.hpp:89-98); the entries are those of the base class. -/
structure ParVec (α : Type) where
  data : List α
  part : List Int
  globalSize : Int
  deriving DecidableEq

namespace ParVec

/-- `Init()` (modules/parlinalgcpp/src/parvector.cpp:32-50): two elements of the partition are asserted, three are read. -/
def init (data : List α) (part : List Int) : Res (ParVec α) := do
  cassert (part.length ≥ 2)
  let p0 ← rd part 0
  cassert (p0 ≥ 0)
  let p1 ← rd part 1
  cassert (p1 ≥ 0)
  let g ← rd part 2
  cassert ((data.length : Int) = p1 - p0)
  cassert (p0 < g)
  cassert (p1 ≤ g)
  cassert (p1 ≥ p0)
  .ok ⟨data, part, g⟩

/-- `ParVector(comm, val, part)` (modules/parlinalgcpp/src/parvector.cpp:18-23). -/
def ofVal (val : α) (part : List Int) : Res (ParVec α) := do
  let p1 ← rd part 1
  let p0 ← rd part 0
  let data ← mkVec (p1 - p0) val
  init data part

/-- `ParVector(comm, part)` (modules/parlinalgcpp/src/parvector.cpp:13-16). -/
def ofPart [Zero α] (part : List Int) : Res (ParVec α) := ofVal 0 part

/-- `ParVector(comm, vect, part)` (modules/parlinalgcpp/src/parvector.cpp:25-30). -/
def ofVect (vect : List α) (part : List Int) : Res (ParVec α) := init vect part

/-- `operator=(double)` (modules/parlinalgcpp/src/parvector.cpp:146-151). -/
def fill (v : ParVec α) (val : α) : ParVec α := { v with data := v.data.map (fun _ => val) }

/-- `LocalSum()` (modules/parlinalgcpp/src/parvector.cpp:163-166). -/
def localSum [Zero α] [Add α] (v : ParVec α) : α := Vec.sum v.data

/-- `lhs += rhs` (modules/parlinalgcpp/src/parvector.cpp:119-124, include/vectorview.hpp:552-565). -/
def addAssign [Zero α] [Add α] (v w : ParVec α) : Res (ParVec α) := do
  cassert (v.data.length = w.data.length)
  .ok { v with data := List.zipWith (· + ·) v.data w.data }

/-- `lhs -= rhs` (modules/parlinalgcpp/src/parvector.cpp:126-131, include/vectorview.hpp:571-584). -/
def subAssign [Zero α] [Sub α] (v w : ParVec α) : Res (ParVec α) := do
  cassert (v.data.length = w.data.length)
  .ok { v with data := List.zipWith (· - ·) v.data w.data }

/-- `lhs *= rhs` (modules/parlinalgcpp/src/parvector.cpp:133-138, include/vectorview.hpp:512-525). -/
def mulAssign [Mul α] (v w : ParVec α) : Res (ParVec α) := do
  cassert (v.data.length = w.data.length)
  .ok { v with data := List.zipWith (· * ·) v.data w.data }

/-- `lhs /= rhs` (modules/parlinalgcpp/src/parvector.cpp:139-144, include/vectorview.hpp:531-546). -/
def divAssign [Zero α] [Div α] [DecidableEq α] (v w : ParVec α) : Res (ParVec α) := do
  cassert (v.data.length = w.data.length)
  cassert (∀ x ∈ w.data, x ≠ 0)
  .ok { v with data := List.zipWith (· / ·) v.data w.data }

/-- `lhs -= val` (include/vectorview.hpp:637-646). -/
def subScalar [Sub α] (v : ParVec α) (val : α) : ParVec α := { v with data := v.data.map (fun a => a - val) }

end ParVec

namespace Par

/-- `ParMult(comm, lhs, rhs)` (modules/parlinalgcpp/src/parvector.cpp:229-237) for an `lhs` that is not a `ParVector`, on all processes; also
`ParVector::Mult` (153-161) and `Mult(ParVector, ParVector)` (209-212).  `ParMult` of a `ParVector` is in `Verif.Model.Dispatch`. -/
def inner [Zero α] [Add α] [Mul α] (xs ys : List (List α)) : Res (List α) := do
  let sums ← (xs.zip ys).mapM (fun p => Vec.inner p.1 p.2)
  .ok (mpiAllreduceSum sums)

/-- `ParL2Norm(comm, vect)` (modules/parlinalgcpp/src/parvector.cpp:214-222) for a `vect` that is not a `ParVector`, on all processes; also
`ParVector::L2Norm` (204-207) and `L2Norm(ParVector)` (224-227). -/
def l2Norm [Zero α] [Add α] [Mul α] (sqrt : α → α) (xs : List (List α)) : Res (List α) := do
  let s ← inner xs xs
  .ok (s.map sqrt)

/-- `GlobalSum()` (modules/parlinalgcpp/src/parvector.cpp:168-179), on all processes. -/
def globalSum [Zero α] [Add α] (vs : List (ParVec α)) : List α := mpiAllreduceSum (vs.map ParVec.localSum)

/-- `SubAvg(ParVector& vect)` (modules/parlinalgcpp/src/parvector.cpp:181-184), on all processes; dividing by a global size of 0 is an
error here. -/
def subAvg [Field α] (vs : List (ParVec α)) : Res (List (ParVec α)) :=
  (vs.zip (globalSum vs)).mapM (fun p =>
    if p.1.globalSize = 0 then .error .divZero else .ok (p.1.subScalar (p.2 / (p.1.globalSize : α))))

end Par

/-- A vector product of hypre on all processes: the shares of the matrix and of the vector to the shares of the product. -/
abbrev Par.Matvec (α : Type) : Type := List (ParMat α) → List (List α) → List (List α)

namespace ParMat

/-- The checks of `Mult(input, output)` on one process (modules/parlinalgcpp/src/parmatrix.cpp:215-216). -/
def multCheck (M : ParMat α) (inputSize outputSize : Int) : Res Unit := do
  cassert (inputSize = M.diag.cols)
  cassert (outputSize = M.diag.rows)

/-- The checks of `MultAT(input, output)` on one process (modules/parlinalgcpp/src/parmatrix.cpp:240-241). -/
def multATCheck (M : ParMat α) (inputSize outputSize : Int) : Res Unit := do
  cassert (inputSize = M.diag.rows)
  cassert (outputSize = M.diag.cols)

/-- The further checks of `Mult(const ParVector&, ParVector&)` on one process (modules/parlinalgcpp/src/parmatrix.cpp:267-268). -/
def multCheckGlobal (M : ParMat α) (input output : ParVec α) : Res Unit := do
  cassert (input.globalSize = M.globalCols)
  cassert (output.globalSize = M.globalRows)

/-- The further checks of `MultAT(const ParVector&, ParVector&)` on one process (modules/parlinalgcpp/src/parmatrix.cpp:291-292). -/
def multATCheckGlobal (M : ParMat α) (input output : ParVec α) : Res Unit := do
  cassert (input.globalSize = M.globalRows)
  cassert (output.globalSize = M.globalCols)

/-! ## Updates in place

`diag_` and `offd_` keep their arrays, so hypre sees the new values. -/

/-- `operator*=(double)` (modules/parlinalgcpp/src/parmatrix.cpp:302-308). -/
def scale [Mul α] (M : ParMat α) (val : α) : ParMat α := { M with diag := M.diag.scale val, offd := M.offd.scale val }

/-- `operator=(double)` (modules/parlinalgcpp/src/parmatrix.cpp:310-316). -/
def fillVal [Zero α] [DecidableEq α] (M : ParMat α) (val : α) : Res (ParMat α) := do
  let d ← M.diag.fillVal val
  let o ← M.offd.fillVal val
  .ok { M with diag := d, offd := o }

/-- `operator-()` (modules/parlinalgcpp/src/parmatrix.cpp:318-324), with the copy constructor (123-134), which reorders the copy. -/
def neg [Mul α] [One α] [Neg α] (reorder : Csr α → Csr α) (M : ParMat α) : ParMat α :=
  ({ M with diag := reorder M.diag } : ParMat α).scale (-1)

/-- `AddDiag(double)` (modules/parlinalgcpp/src/parmatrix.cpp:337-340). -/
def addDiagVal [Add α] (M : ParMat α) (val : α) : Res (ParMat α) := do
  let d ← M.diag.addDiagVal val
  .ok { M with diag := d }

/-- `AddDiag(const std::vector<double>&)` (modules/parlinalgcpp/src/parmatrix.cpp:342-345). -/
def addDiag [Add α] (M : ParMat α) (vals : List α) : Res (ParMat α) := do
  let d ← M.diag.addDiag vals
  .ok { M with diag := d }

/-- `ScaleRows(const std::vector<double>&)` (modules/parlinalgcpp/src/parmatrix.cpp:382-386). -/
def scaleRows [Mul α] (M : ParMat α) (values : List α) : Res (ParMat α) := do
  let d ← M.diag.scaleRows values
  let o ← M.offd.scaleRows values
  .ok { M with diag := d, offd := o }

/-- `ScaleRows(const SparseMatrix<double>&)` (modules/parlinalgcpp/src/parmatrix.cpp:370-374). -/
def scaleRowsMat [Mul α] (M : ParMat α) (D : Csr α) : Res (ParMat α) := do
  let d ← M.diag.scaleRowsMat D
  let o ← M.offd.scaleRowsMat D
  .ok { M with diag := d, offd := o }

/-- `InverseScaleRows(const std::vector<double>&)` (modules/parlinalgcpp/src/parmatrix.cpp:388-392). -/
def inverseScaleRows [Zero α] [Div α] [DecidableEq α] (M : ParMat α) (values : List α) : Res (ParMat α) := do
  let d ← M.diag.inverseScaleRows values
  let o ← M.offd.inverseScaleRows values
  .ok { M with diag := d, offd := o }

/-- `InverseScaleRows(const SparseMatrix<double>&)` (modules/parlinalgcpp/src/parmatrix.cpp:376-380). -/
def inverseScaleRowsMat [Zero α] [Div α] [DecidableEq α] (M : ParMat α) (D : Csr α) : Res (ParMat α) := do
  let d ← M.diag.inverseScaleRowsMat D
  let o ← M.offd.inverseScaleRowsMat D
  .ok { M with diag := d, offd := o }

/-- `EliminateRow(int)` (modules/parlinalgcpp/src/parmatrix.cpp:394-398). -/
def eliminateRow [Zero α] (M : ParMat α) (index : Int) : Res (ParMat α) := do
  let d ← M.diag.eliminateRow index
  let o ← M.offd.eliminateRow index
  .ok { M with diag := d, offd := o }

end ParMat

namespace Par

/-- `MaxNorm()` (modules/parlinalgcpp/src/parmatrix.cpp:354-363), on all processes. -/
def maxNorm [LinearOrder α] [AddGroup α] (Ms : List (ParMat α)) : List α :=
  mpiAllreduceMax (Ms.map (fun M => Max.max M.diag.maxNorm M.offd.maxNorm))

/-- `Mult(input)` (modules/parlinalgcpp/src/parmatrix.cpp:204-210) and `Mult(input, output)` (212-227) with an output of that size, on
all processes. -/
def mult (mv : Matvec α) (Ms : List (ParMat α)) (xs : List (List α)) : Res (List (List α)) := do
  let _ ← (Ms.zip xs).mapM (fun p => p.1.multCheck (p.2.length : Int) p.1.diag.rows)
  .ok (mv Ms xs)

/-- `MultAT(input)` (modules/parlinalgcpp/src/parmatrix.cpp:229-235) and `MultAT(input, output)` (237-252) with an output of that size,
on all processes. -/
def multAT (mvT : Matvec α) (Ms : List (ParMat α)) (xs : List (List α)) : Res (List (List α)) := do
  let _ ← (Ms.zip xs).mapM (fun p => p.1.multATCheck (p.2.length : Int) p.1.diag.cols)
  .ok (mvT Ms xs)

/-- `Mult(const ParVector&, ParVector&)` (modules/parlinalgcpp/src/parmatrix.cpp:262-276), on all processes. -/
def multVecInto (mv : Matvec α) (Ms : List (ParMat α)) (xs ys : List (ParVec α)) : Res (List (ParVec α)) := do
  let _ ← (Ms.zip (xs.zip ys)).mapM (fun p => do
    p.1.multCheck (p.2.1.data.length : Int) (p.2.2.data.length : Int)
    p.1.multCheckGlobal p.2.1 p.2.2)
  .ok ((ys.zip (mv Ms (xs.map ParVec.data))).map (fun p => { p.1 with data := p.2 }))

/-- `Mult(const ParVector&)` (modules/parlinalgcpp/src/parmatrix.cpp:254-260), on all processes.  The second argument of the constructor
is the initial value, so the output starts out filled with the number of global rows. -/
def multVec [Zero α] [IntCast α] (mv : Matvec α) (Ms : List (ParMat α)) (xs : List (ParVec α)) : Res (List (ParVec α)) := do
  let ys ← Ms.mapM (fun M => ParVec.ofVal (M.globalRows : α) M.rowStarts)
  multVecInto mv Ms xs ys

/-- `MultAT(const ParVector&, ParVector&)` (modules/parlinalgcpp/src/parmatrix.cpp:286-300), on all processes. -/
def multATVecInto (mvT : Matvec α) (Ms : List (ParMat α)) (xs ys : List (ParVec α)) : Res (List (ParVec α)) := do
  let _ ← (Ms.zip (xs.zip ys)).mapM (fun p => do
    p.1.multATCheck (p.2.1.data.length : Int) (p.2.2.data.length : Int)
    p.1.multATCheckGlobal p.2.1 p.2.2)
  .ok ((ys.zip (mvT Ms (xs.map ParVec.data))).map (fun p => { p.1 with data := p.2 }))

/-- `MultAT(const ParVector&)` (modules/parlinalgcpp/src/parmatrix.cpp:278-284), on all processes. -/
def multATVec [Zero α] [IntCast α] (mvT : Matvec α) (Ms : List (ParMat α)) (xs : List (ParVec α)) : Res (List (ParVec α)) := do
  let ys ← Ms.mapM (fun M => ParVec.ofVal (M.globalCols : α) M.colStarts)
  multATVecInto mvT Ms xs ys

end Par
end Linalg
