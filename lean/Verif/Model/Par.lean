import Verif.Model.Coo

/-!
# Distributed matrices (modules/parlinalgcpp)

A program runs on `num_procs` processes at once.  Functions that communicate are modelled for all processes together: their
arguments and results are lists with one element per process, in rank order.  Functions that do not communicate are modelled for
one process.  There is one communicator.

MPI: `MPI_Scan` with `MPI_SUM` gives every process the element-wise sum over the processes up to and including itself;
`MPI_Bcast` from the last process copies its buffer to all; a collective call in which the processes pass different counts is
undefined.  hypre: of `HypreCreate` only `hypre_CSRMatrixReorder`, which moves the diagonal entry of each row of `diag_` to the
front, changes what this library can see; it is a parameter.  `HYPRE_AssumedPartitionCheck()` is taken to be true.
-/

namespace Linalg
open Cpp

variable {α : Type}

/-! ## MPI -/

/-- The running sums of `MPI_Scan`. -/
def scanFrom (acc : List Int) : List (List Int) → List (List Int)
  | [] => []
  | b :: bs => List.zipWith (· + ·) acc b :: scanFrom (List.zipWith (· + ·) acc b) bs

/-- `MPI_Scan(send, recv, count, MPI_INT, MPI_SUM, comm)`: the receive buffers. -/
def mpiScan (bufs : List (List Int)) : Res (List (List Int)) :=
  match bufs with
  | [] => .ok []
  | b :: bs =>
    if bs.all (fun c => c.length == b.length) then .ok (scanFrom (List.replicate b.length 0) (b :: bs))
    else .error .undefinedBehaviour

/-- `MPI_Bcast(buf, count, MPI_INT, num_procs - 1, comm)`: the buffers afterwards. -/
def mpiBcastLast (bufs : List (List Int)) : Res (List (List Int)) :=
  match bufs.getLast? with
  | none => .ok []
  | some l =>
    if bufs.all (fun c => c.length == l.length) then .ok (bufs.map (fun _ => l)) else .error .undefinedBehaviour

namespace Par

/-! ## GenerateOffsets -/

/-- First part of `GenerateOffsets` on one process (modules/parlinalgcpp/src/parutilities.cpp:119-132). -/
def offsetsLocal (sizes scan : List Int) : Res (List (List Int)) :=
  forUp 0 (sizes.length : Int) (List.replicate sizes.length (List.replicate 3 (0 : Int))) (fun i offsets => do
    let s ← rd scan i
    let n ← rd sizes i
    let o ← rd offsets i
    let o ← wr o 0 (s - n)
    let offsets ← wr offsets i o
    let o ← rd offsets i
    let o ← wr o 1 s
    wr offsets i o)

/-- Last part of `GenerateOffsets` on one process (modules/parlinalgcpp/src/parutilities.cpp:139-144). -/
def offsetsTotal (numSizes : Int) (offsets : List (List Int)) (scan : List Int) : Res (List (List Int)) :=
  forUp 0 numSizes offsets (fun i offsets => do
    let s ← rd scan i
    let o ← rd offsets i
    let o ← wr o 2 s
    wr offsets i o)

/-- `GenerateOffsets(comm, local_sizes)` (modules/parlinalgcpp/src/parutilities.cpp:115-145), on all processes. -/
def generateOffsets (sizes : List (List Int)) : Res (List (List (List Int))) := do
  let scans ← mpiScan sizes
  let offsets ← (sizes.zip scans).mapM (fun p => offsetsLocal p.1 p.2)
  let totals ← mpiBcastLast scans
  (sizes.zip (offsets.zip totals)).mapM (fun p => offsetsTotal (p.1.length : Int) p.2.1 p.2.2)

/-- `GenerateOffsets(comm, local_size)` (modules/parlinalgcpp/src/parutilities.cpp:147-155), on all processes. -/
def generateOffsets1 (sizes : List Int) : Res (List (List Int)) := do
  let offsets ← generateOffsets (sizes.map (fun n => [n]))
  offsets.mapM (fun o => do
    cassert (o.length = 1)
    rd o 0)

/-! ## SortColumnMap -/

/-- `SortColumnMap(col_map, coo_offd)` (modules/parlinalgcpp/src/parutilities.cpp:157-185); `srt` is the `std::sort` used. -/
def sortColumnMap (srt : Csr.Sorter) (colMap : List Int) (offd : Coo α) : Res (List Int × Coo α) := do
  let permutation := srt (fun a b => colMap.getD a.toNat 0 < colMap.getD b.toNat 0) (iota colMap.length)
  let colIndex := List.replicate colMap.length (0 : Int)
  let colIndex ← forUp 0 (colMap.length : Int) colIndex (fun i c => do
    let p ← rd permutation i
    wr c p i)
  let offd ← offd.permuteCols colIndex
  let colIndex ← forUp 0 (colMap.length : Int) colIndex (fun i c => do
    let p ← rd permutation i
    let g ← rd colMap p
    wr c i g)
  .ok (colIndex, offd)

end Par

/-! ## ParMatrix -/

/-- `class ParMatrix` on one process (modules/parlinalgcpp/include/parmatrix.hpp:286-289), with `rows_`, `cols_` from `Operator`
and the starts from `ParOperator`. -/
structure ParMat (α : Type) where
  rows : Int
  cols : Int
  rowStarts : List Int
  colStarts : List Int
  diag : Csr α
  offd : Csr α
  colMap : List Int
  deriving DecidableEq

namespace ParMat

/-- `GlobalRows()` (modules/parlinalgcpp/src/paroperator.cpp:101-111). -/
def globalRows (M : ParMat α) : Int := if M.rowStarts.length ≥ 3 then M.rowStarts.getD 2 0 else 0

/-- `GlobalCols()` (modules/parlinalgcpp/src/paroperator.cpp:113-123). -/
def globalCols (M : ParMat α) : Int := if M.colStarts.length ≥ 3 then M.colStarts.getD 2 0 else 0

/-- One round of the column map check in `Init()` (modules/parlinalgcpp/src/parmatrix.cpp:97-111). -/
def checkCol (M : ParMat α) (offdSize i : Int) : Res Unit := do
  let c ← rd M.colMap i
  cassert (c ≥ 0 ∧ c < M.globalCols)
  let c1 ← rd M.colStarts 1
  let c0 ← rd M.colStarts 0
  cassert (c ≥ c1 ∨ c < c0)
  if i > 0 then
    let p ← rd M.colMap (i - 1)
    cassert (c > p)
  if i < offdSize - 1 then
    let n ← rd M.colMap (i + 1)
    cassert (c < n)
  else .ok ()

/-- `Init()` (modules/parlinalgcpp/src/parmatrix.cpp:70-114). -/
def init (reorder : Csr α → Csr α) (M : ParMat α) : Res (ParMat α) := do
  cassert (M.rowStarts.length = 3)
  cassert (M.colStarts.length = 3)
  let r0 ← rd M.rowStarts 0
  let r1 ← rd M.rowStarts 1
  let r2 ← rd M.rowStarts 2
  let c0 ← rd M.colStarts 0
  let c1 ← rd M.colStarts 1
  let c2 ← rd M.colStarts 2
  cassert (r0 ≥ 0)
  cassert (r1 ≤ r2)
  cassert (c0 ≥ 0)
  cassert (c1 ≤ c2)
  let offd ← if M.offd.rows = 0 ∧ M.offd.cols = 0 then Csr.zero (r1 - r0) 0 else .ok M.offd
  let M := { M with rows := r1 - r0, cols := c1 - c0, offd := offd }
  cassert (M.diag.rows = r1 - r0)
  cassert (M.diag.cols = c1 - c0)
  cassert (M.offd.rows = r1 - r0)
  cassert (M.offd.cols = (M.colMap.length : Int))
  forUp 0 (M.colMap.length : Int) () (fun i _ => M.checkCol (M.colMap.length : Int) i)
  .ok { M with diag := reorder M.diag }

/-- `ParMatrix(comm, row_starts, col_starts, diag, offd, col_map)` (modules/parlinalgcpp/src/parmatrix.cpp:58-68), with the base
constructors (modules/parlinalgcpp/src/paroperator.cpp:26-35, src/operator.cpp:18-23). -/
def new (reorder : Csr α → Csr α) (rowStarts colStarts : List Int) (diag offd : Csr α) (colMap : List Int) : Res (ParMat α) := do
  let r1 ← rd rowStarts 1
  let r0 ← rd rowStarts 0
  let c1 ← rd colStarts 1
  let c0 ← rd colStarts 0
  cassert (r1 - r0 ≥ 0)
  cassert (c1 - c0 ≥ 0)
  cassert (rowStarts.length ≥ 3)
  cassert (colStarts.length ≥ 3)
  init reorder ⟨r1 - r0, c1 - c0, rowStarts, colStarts, diag, offd, colMap⟩

/-- `ParMatrix(comm, row_starts, col_starts, diag)` (modules/parlinalgcpp/src/parmatrix.cpp:48-56); with equal starts also
`ParMatrix(comm, starts, diag)` (40-46). -/
def newDiag (reorder : Csr α → Csr α) (rowStarts colStarts : List Int) (diag : Csr α) : Res (ParMat α) :=
  new reorder rowStarts colStarts diag Csr.empty []

/-- `ParMatrix(comm, diag, offd, col_map)` (modules/parlinalgcpp/src/parmatrix.cpp:21-38), on all processes. -/
def newAll (reorder : Csr α → Csr α) (blocks : List (Csr α × Csr α × List Int)) : Res (List (ParMat α)) := do
  let starts ← Par.generateOffsets (blocks.map (fun b => [b.1.rows, b.1.cols]))
  (blocks.zip starts).mapM (fun p => do
    cassert (p.2.length = 2)
    let r ← rd p.2 0
    let c ← rd p.2 1
    init reorder ⟨0, 0, r, c, p.1.1, p.1.2.1, p.1.2.2⟩)

end ParMat

namespace Par

/-! ## ParAdd -/

/-- The lambda `diag_to_coo` of `ParAdd` (modules/parlinalgcpp/src/parutilities.cpp:239-252). -/
def diagToCoo [Mul α] (rows : Int) (val : α) (A : Csr α) (C : Coo α) : Res (Coo α) :=
  forUp 0 rows C (fun i C => A.forRow i C (fun j C => do
    let c ← rd A.indices j
    let d ← rd A.data j
    C.add i c (val * d)))

/-- The variables the lambda `offd_to_coo` of `ParAdd` works on. -/
structure OffdState (α : Type) where
  offd : Coo α
  colMap : List Int
  marker : List Int

/-- The loop body of `offd_to_coo` (modules/parlinalgcpp/src/parutilities.cpp:271-283).  The value that opens a new column is added
without the factor `val`, as in the code. -/
def offdEntry [Mul α] (val : α) (A : Csr α) (aMap : List Int) (i j : Int) (st : OffdState α) : Res (OffdState α) := do
  let c ← rd A.indices j
  let g ← rd aMap c
  let m ← rd st.marker g
  let d ← rd A.data j
  if m ≥ 0 then
    let C ← st.offd.add i m (val * d)
    .ok { st with offd := C }
  else
    let C ← st.offd.add i (st.colMap.length : Int) d
    let marker ← wr st.marker g (st.colMap.length : Int)
    .ok ⟨C, st.colMap ++ [g], marker⟩

/-- The lambda `offd_to_coo` of `ParAdd` (modules/parlinalgcpp/src/parutilities.cpp:260-286). -/
def offdToCoo [Mul α] (rows : Int) (val : α) (A : Csr α) (aMap : List Int) (st : OffdState α) : Res (OffdState α) :=
  forUp 0 rows st (fun i st => A.forRow i st (offdEntry val A aMap i))

/-- `ParAdd(alpha, A, beta, B, marker)` (modules/parlinalgcpp/src/parutilities.cpp:221-304), on one process; the final `marker` is
returned too. -/
def parAddMarker [Zero α] [Add α] [Mul α] (srt : Csr.Sorter) (reorder : Csr α → Csr α) (alpha : α) (A : ParMat α) (beta : α)
    (B : ParMat α) (marker : List Int) : Res (ParMat α × List Int) := do
  cassert (A.rows = B.rows)
  cassert (A.cols = B.cols)
  cassert (A.globalRows = B.globalRows)
  cassert (A.globalCols = B.globalCols)
  cassert (A.rowStarts = B.rowStarts)
  cassert ((marker.length : Int) ≥ A.globalCols)
  let cooDiag ← Coo.ofSize A.rows A.cols
  let cooDiag ← diagToCoo A.rows alpha A.diag cooDiag
  let cooDiag ← diagToCoo A.rows beta B.diag cooDiag
  let st : OffdState α := ⟨Coo.new, [], List.replicate marker.length (-1)⟩
  let st ← offdToCoo A.rows alpha A.offd A.colMap st
  let st ← offdToCoo A.rows beta B.offd B.colMap st
  let cooOffd ← st.offd.setSize A.rows (st.colMap.length : Int)
  let sorted ← sortColumnMap srt st.colMap cooOffd
  let marker ← sorted.1.foldlM (fun m col => wr m col (-1)) st.marker
  let diag ← cooDiag.toSparse
  let offd ← sorted.2.toSparse
  let M ← ParMat.new reorder A.rowStarts A.colStarts diag offd sorted.1
  .ok (M, marker)

/-- `ParAdd(alpha, A, beta, B)` (modules/parlinalgcpp/src/parutilities.cpp:215-219); `ParAdd(A, B)` (210-213) passes 1 twice. -/
def parAdd [Zero α] [Add α] [Mul α] (srt : Csr.Sorter) (reorder : Csr α → Csr α) (alpha : α) (A : ParMat α) (beta : α)
    (B : ParMat α) : Res (ParMat α) := do
  let marker ← mkVec A.globalCols (-1 : Int)
  let r ← parAddMarker srt reorder alpha A beta B marker
  .ok r.1

/-- `ParSub(alpha, A, beta, B)` (modules/parlinalgcpp/src/parutilities.cpp:311-314); `ParSub(A, B)` (306-309) has both factors 1. -/
def parSub [Zero α] [Add α] [Mul α] [Neg α] (srt : Csr.Sorter) (reorder : Csr α → Csr α) (alpha : α) (A : ParMat α) (beta : α)
    (B : ParMat α) : Res (ParMat α) :=
  parAdd srt reorder alpha A (-beta) B

/-! ## ParSplit -/

/-- The vertices of process `me` (modules/parlinalgcpp/src/parutilities.cpp:22-32). -/
def localPart (me : Int) (part : List Int) : Res (List Int) :=
  forUp 0 (part.length : Int) [] (fun i l => do
    let p ← rd part i
    if p = me then .ok (l ++ [i]) else .ok l)

/-- The contribution of one process to the permutation (modules/parlinalgcpp/src/parutilities.cpp:39-44). -/
def localPerm (globalVertices : Int) (lp starts : List Int) : Res (List Int) := do
  let tmp ← mkVec globalVertices (0 : Int)
  forUp 0 (lp.length : Int) tmp (fun i tmp => do
    let v ← rd lp i
    let s ← rd starts 0
    wr tmp v (i + s))

/-- The variables of the main loop of `ParSplit`. -/
structure SplitState (α : Type) where
  diag : Coo α
  offd : Coo α
  colMap : List Int
  colMapIndex : List Int

/-- The body of the main loop of `ParSplit` (modules/parlinalgcpp/src/parutilities.cpp:67-101). -/
def splitEntry (A : Csr α) (starts perm localIndex : List Int) (localVertices lv j : Int) (st : SplitState α) :
    Res (SplitState α) := do
  let col ← rd A.indices j
  let val ← rd A.data j
  let g ← rd perm col
  let s0 ← rd starts 0
  let s1 ← rd starts 1
  if g ≥ s0 ∧ g < s1 then
    let lc ← rd localIndex g
    cassert (lc ≥ 0 ∧ lc < localVertices)
    if lc ≥ lv then
      let D ← st.diag.addSym lv lc val
      .ok { st with diag := D }
    else .ok st
  else
    let lc ← rd st.colMapIndex g
    if lc ≥ 0 then
      let C ← st.offd.add lv lc val
      .ok { st with offd := C }
    else
      let index ← wr st.colMapIndex g (st.colMap.length : Int)
      let C ← st.offd.add lv (st.colMap.length : Int) val
      .ok ⟨st.diag, C, st.colMap ++ [g], index⟩

/-- What `ParSplit` does on one process once the permutation is known (modules/parlinalgcpp/src/parutilities.cpp:48-112). -/
def splitLocal [Zero α] [Add α] (srt : Csr.Sorter) (reorder : Csr α → Csr α) (A : Csr α) (lp starts perm : List Int) :
    Res (ParMat α) := do
  let colMapIndex ← mkVec A.rows (-1 : Int)
  let localIndex ← mkVec A.rows (-1 : Int)
  let localIndex ← forUp 0 (lp.length : Int) localIndex (fun i l => do
    let v ← rd lp i
    let g ← rd perm v
    wr l g i)
  let st : SplitState α := ⟨Coo.new, Coo.new, [], colMapIndex⟩
  let st ← forUp 0 (lp.length : Int) st (fun lv st => do
    let vertex ← rd lp lv
    A.forRow vertex st (splitEntry A starts perm localIndex (lp.length : Int) lv))
  let cooDiag ← st.diag.setSize (lp.length : Int) (lp.length : Int)
  let cooOffd ← st.offd.setSize (lp.length : Int) (st.colMap.length : Int)
  let sorted ← sortColumnMap srt st.colMap cooOffd
  let diag ← cooDiag.toSparse
  let offd ← sorted.2.toSparse
  ParMat.new reorder starts starts diag offd sorted.1

/-- `ParSplit(comm, A_global, proc_part)` (modules/parlinalgcpp/src/parutilities.cpp:8-113), on all processes; every process has
the whole matrix and the whole partition. -/
def parSplit [Zero α] [Add α] (srt : Csr.Sorter) (reorder : Csr α → Csr α) (numProcs : Nat) (A : Csr α) (part : List Int) :
    Res (List (ParMat α)) := do
  cassert (A.rows = A.cols)
  let lps ← (iota numProcs).mapM (fun me => localPart me part)
  let starts ← generateOffsets1 (lps.map (fun lp => (lp.length : Int)))
  let tmps ← (lps.zip starts).mapM (fun p => localPerm A.rows p.1 p.2)
  let scans ← mpiScan tmps
  let perms ← mpiBcastLast scans
  (lps.zip (starts.zip perms)).mapM (fun p => splitLocal srt reorder A p.1 p.2.1 p.2.2)

end Par
end Linalg
