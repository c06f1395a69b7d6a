import Verif.Model.ParOps

/-!
# Transposing distributed matrices (modules/parlinalgcpp/src/hypre_ops.cpp:893-1166)

All processes run the same steps; the communication in between is by the communication package of the matrix
(`hypre_ParCSRCommPkg`): which elements of the column map a process needs from which process, and which of its own columns it
has to send to which process.  A process has no loop that depends on the others, so the processes are run step by step together.

From hypre: the package itself (`hypre_MatvecCommPkgCreate`) is the parameter `pkgs`; `hypre_ParCSRCommHandleCreate` with job 2 or 12
(the transposed exchange, for doubles and integers) is `revExchange`; `qsort0` is the parameter `srt`, `hypre_BinarySearch` is `search`.
-/

namespace Linalg
open Cpp

variable {α : Type}

namespace Par

/-- `hypre_ParCSRCommPkg`: for every process to receive from, a range of the column map; for every process to send to, a range of the
list of own columns. -/
structure CommPkg where
  recvProcs : List Int
  recvStarts : List Int
  sendProcs : List Int
  sendStarts : List Int
  sendElmts : List Int

/-- The message a process sends to process `q` in a transposed exchange: the part of its data in the range of `q`. -/
def message {β : Type} (pkg : CommPkg) (data : List β) (q : Int) : Res (List β) := do
  let i := (pkg.recvProcs.idxOf q : Int)
  let lo ← rd pkg.recvStarts i
  let hi ← rd pkg.recvStarts (i + 1)
  Csr.slice data lo hi

/-- What process `q` has in its buffer after a transposed exchange.  The messages come from the processes it sends to otherwise, each into
its own range of the buffer; these ranges follow each other from 0.  A message that does not fit its range is an error. -/
def revExchange {β : Type} (pkgs : List CommPkg) (data : List (List β)) (q : Int) : Res (List β) := do
  let pkg ← rd pkgs q
  forUp 0 (pkg.sendProcs.length : Int) [] (fun j buf => do
    let p ← rd pkg.sendProcs j
    let pk ← rd pkgs p
    let d ← rd data p
    let msg ← message pk d q
    let lo ← rd pkg.sendStarts j
    let hi ← rd pkg.sendStarts (j + 1)
    if (msg.length : Int) = hi - lo then .ok (buf ++ msg) else .error .undefinedBehaviour)

/-- What a process prepares to send. -/
structure TrSend (α : Type) where
  ti : List Int
  tj : List Int
  tdata : List α
  recvStarts : List Int

/-- Adding up `sizes` over ranges (modules/parlinalgcpp/src/hypre_ops.cpp:1010-1020). -/
def rangeStarts (starts sizes : List Int) (n : Int) : Res (List Int) := do
  let rs ← mkVec (n + 1) (0 : Int)
  let r0 ← rd starts 0
  let rs ← wr rs 0 r0
  forUp 0 n rs (fun i rs => do
    let x ← rd rs i
    let rs ← wr rs (i + 1) x
    let lo ← rd starts i
    let hi ← rd starts (i + 1)
    forUp lo hi rs (fun j rs => do
      let x ← rd rs (i + 1)
      let s ← rd sizes j
      wr rs (i + 1) (x + s)))

/-- The transposed off-process block with global row numbers, row sizes instead of row pointers, and the ranges of the entries
(modules/parlinalgcpp/src/hypre_ops.cpp:959-983, 1010-1020). -/
def trSend [Zero α] (A : ParMat α) (pkg : CommPkg) : Res (TrSend α) := do
  let T ← A.offd.transpose
  let first ← rd A.rowStarts 0
  let nnz ← rd T.indptr A.offd.cols
  let tj ← forUp 0 nnz T.indices (fun i tj => do
    let x ← rd tj i
    wr tj i (x + first))
  let ti ← forUp 0 A.offd.cols T.indptr (fun i ti => do
    let x ← rd ti (i + 1)
    let y ← rd ti i
    wr ti i (x - y))
  let rs ← rangeStarts pkg.recvStarts ti (pkg.recvProcs.length : Int)
  .ok ⟨ti, tj, T.data, rs⟩

/-- The ranges of the entries to receive and the row pointers of the new block
(modules/parlinalgcpp/src/hypre_ops.cpp:955, 989-1008). -/
def trCount (cols : Int) (pkg : CommPkg) (bufI : List Int) : Res (List Int × List Int) := do
  let oi ← mkVec (cols + 1) (0 : Int)
  let ss ← mkVec ((pkg.sendProcs.length : Int) + 1) (0 : Int)
  let s0 ← rd pkg.sendStarts 0
  let ss ← wr ss 0 s0
  let st ← forUp 0 (pkg.sendProcs.length : Int) (ss, oi) (fun i st => do
    let x ← rd st.1 i
    let ss ← wr st.1 (i + 1) x
    let lo ← rd pkg.sendStarts i
    let hi ← rd pkg.sendStarts (i + 1)
    forUp lo hi (ss, st.2) (fun j st => do
      let x ← rd st.1 (i + 1)
      let b ← rd bufI j
      let ss ← wr st.1 (i + 1) (x + b)
      let e ← rd pkg.sendElmts j
      let y ← rd st.2 (e + 1)
      let oi ← wr st.2 (e + 1) (y + b)
      .ok (ss, oi)))
  let oi ← forUp 0 cols st.2 (fun i oi => do
    let x ← rd oi (i + 1)
    let y ← rd oi i
    wr oi (i + 1) (x + y))
  .ok (st.1, oi)

/-- The arrays of the new off-process block while they are filled. -/
structure TrFill (α : Type) where
  oi : List Int
  oj : List Int
  od : List α
  counter : Int

/-- Storing the received entries (modules/parlinalgcpp/src/hypre_ops.cpp:1050-1084). -/
def trFill [Zero α] (cols : Int) (pkg : CommPkg) (bufI bufJ : List Int) (bufData : List α) (oi : List Int) : Res (TrFill α) := do
  let nnz ← rd oi cols
  let oj ← mkVec nnz (0 : Int)
  let od ← mkVec nnz (0 : α)
  let st ← forUp 0 (pkg.sendProcs.length : Int) (TrFill.mk oi oj od 0) (fun i st => do
    let lo ← rd pkg.sendStarts i
    let hi ← rd pkg.sendStarts (i + 1)
    forUp lo hi st (fun j st => do
      let row ← rd pkg.sendElmts j
      let index ← rd st.oi row
      let n ← rd bufI j
      let r ← forUp 0 n (index, st) (fun _ r => do
        let d ← rd bufData r.2.counter
        let od ← wr r.2.od r.1 d
        let c ← rd bufJ r.2.counter
        let oj ← wr r.2.oj r.1 c
        .ok (r.1 + 1, { r.2 with od := od, oj := oj, counter := r.2.counter + 1 }))
      let oi ← wr r.2.oi row r.1
      .ok { r.2 with oi := oi }))
  let oi ← forDown cols 0 st.oi (fun i p => do
    let x ← rd p (i - 1)
    wr p i x)
  let oi ← wr oi 0 0
  .ok { st with oi := oi }

/-- The column map of the transpose: the received columns, sorted, without repetitions
(modules/parlinalgcpp/src/hypre_ops.cpp:1086-1110).  Only the first `counter` elements of the buffer are looked at. -/
def trMap (srt : Csr.Sorter) (bufJ : List Int) (counter : Int) : Res (List Int) :=
  if counter ≠ 0 then do
    let used ← Csr.slice bufJ 0 counter
    let u ← uniq (srt (fun a b => a < b) used)
    let m ← mkVec u.1 (0 : Int)
    forUp 0 u.1 m (fun i m => do
      let c ← rd u.2 i
      wr m i c)
  else .ok []

/-- Putting the transpose together (modules/parlinalgcpp/src/hypre_ops.cpp:1126-1165). -/
def trBuild [Zero α] (reorder : Csr α → Csr α) (A : ParMat α) (oi oj : List Int) (od : List α) (m : List Int) : Res (ParMat α) := do
  let c0 ← rd A.colStarts 0
  let c1 ← rd A.colStarts 1
  let r0 ← rd A.rowStarts 0
  let r1 ← rd A.rowStarts 1
  let diag ← A.diag.transpose
  let offd ← Csr.ofArrays oi oj od A.diag.cols (m.length : Int)
  ParMat.new reorder [c0, c1, A.globalCols] [r0, r1, A.globalRows] diag offd m

/-- The last part of one process (modules/parlinalgcpp/src/hypre_ops.cpp:1050-1165). -/
def trFinish [Zero α] (srt : Csr.Sorter) (search : List Int → Int → Int) (reorder : Csr α → Csr α) (A : ParMat α) (pkg : CommPkg)
    (bufI bufJ : List Int) (bufData : List α) (oi : List Int) : Res (ParMat α) := do
  let st ← trFill A.diag.cols pkg bufI bufJ bufData oi
  let m ← trMap srt bufJ st.counter
  let oj ← forUp 0 st.counter st.oj (fun i oj => do
    let c ← rd oj i
    wr oj i (search m c))
  trBuild reorder A st.oi oj st.od m

/-- `ParMatrix::Transpose()` (modules/parlinalgcpp/src/hypre_ops.cpp:893-1166) on all processes. -/
def parTranspose [Zero α] (srt : Csr.Sorter) (search : List Int → Int → Int) (reorder : Csr α → Csr α) (pkgs : List CommPkg)
    (As : List (ParMat α)) : Res (List (ParMat α)) :=
  let procs := iota As.length
  if As.length > 1 then do
    let sends ← procs.mapM (fun p => do
      let A ← rd As p
      let pkg ← rd pkgs p
      trSend A pkg)
    let bufI ← procs.mapM (revExchange pkgs (sends.map (·.ti)))
    let counts ← procs.mapM (fun p => do
      let A ← rd As p
      let pkg ← rd pkgs p
      let b ← rd bufI p
      trCount A.diag.cols pkg b)
    let tmpPkgs ← procs.mapM (fun p => do
      let pkg ← rd pkgs p
      let s ← rd sends p
      let c ← rd counts p
      .ok { pkg with recvStarts := s.recvStarts, sendStarts := c.1 })
    let bufJ ← procs.mapM (revExchange tmpPkgs (sends.map (·.tj)))
    let bufD ← procs.mapM (revExchange tmpPkgs (sends.map (·.tdata)))
    procs.mapM (fun p => do
      let A ← rd As p
      let pkg ← rd pkgs p
      let bi ← rd bufI p
      let bj ← rd bufJ p
      let bd ← rd bufD p
      let c ← rd counts p
      trFinish srt search reorder A pkg bi bj bd c.2)
  else
    procs.mapM (fun p => do
      let A ← rd As p
      let oi ← mkVec (A.diag.cols + 1) (0 : Int)
      trBuild reorder A oi [] [] [])

/-- `RAP(R, A, P)` (modules/parlinalgcpp/src/parutilities.cpp:197-203). -/
def rap [Zero α] [Add α] [Mul α] (srt : Csr.Sorter) (search : List Int → Int → Int) (reorder : Csr α → Csr α)
    (extract : List (ParMat α) → ParMat α → Csr α) (pkgs : List CommPkg) (Rs As Ps : List (ParMat α)) : Res (List (ParMat α)) := do
  let rt ← parTranspose srt search reorder pkgs Rs
  let ap ← parMult srt search reorder extract As Ps
  parMult srt search reorder extract rt ap

end Par
end Linalg
