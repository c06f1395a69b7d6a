import Verif.Model.ParOps

/-!
# Products of distributed matrices with OpenMP threads (modules/parlinalgcpp/src/hypre_ops.cpp)

`RowSizes` and `ParMatrix::Mult` as in `Model/ParOps`, compiled with `HYPRE_USING_OPENMP`: `T` threads run the statements in braces after `#pragma omp parallel`, each
with its own range of rows, and wait for each other at the barriers and at the end.  `hypre_NumThreads()` and `hypre_NumActiveThreads()` are `T`,
`hypre_GetThreadNum()` is the number of the thread.

Between two barriers the threads' rows are interleaved in any order: a schedule lists the numbers of the threads in the order in which they work off one row of their
range.  One row is one step (C136_footprint shows what a row reads and writes of the arrays the threads share).  The statements that only thread 0 runs between two
barriers are run before the rows of that part: they write one element that belongs to no row.
-/

namespace Linalg
open Cpp

variable {α σ π : Type}

namespace Par

/-! ## Threads -/

/-- `ns`, the first row of a thread (modules/parlinalgcpp/src/hypre_ops.cpp:88-89, 99-108; 435-448; 681-693). -/
def threadBegin (n T ii : Int) : Int :=
  let size := n.tdiv T
  let rest := n - size * T
  if ii < rest then ii * size + ii else ii * size + rest

/-- `ne`, the end of the rows of a thread (modules/parlinalgcpp/src/hypre_ops.cpp:99-108, 439-448, 684-693). -/
def threadEnd (n T ii : Int) : Int :=
  let size := n.tdiv T
  let rest := n - size * T
  if ii < rest then (ii + 1) * size + ii + 1 else (ii + 1) * size + rest

/-- Thread `t` works off its next row, if it has one.  The state: what the threads share, and for each the next row and its own variables. -/
def threadStep (n T : Int) (body : Int → σ × π → Res (σ × π)) (st : σ × List (Int × π)) (t : Nat) : Res (σ × List (Int × π)) :=
  match st.2[t]? with
  | none => .ok st
  | some (i, p) =>
    if i < threadEnd n T t then do
      let r ← body i (st.1, p)
      .ok (r.1, st.2.set t (i + 1, r.2))
    else .ok st

/-- `for (i = ns; i < ne; i++)` on all threads. -/
def threadFor (n T : Int) (sched : List Nat) (s : σ) (privs : List π) (body : Int → σ × π → Res (σ × π)) : Res (σ × List π) := do
  let st ← sched.foldlM (threadStep n T body) (s, privs.mapIdx (fun t p => (threadBegin n T t, p)))
  .ok (st.1, st.2.map Prod.snd)

/-- The schedule lets every thread finish. -/
def Complete (n : Int) (T : Nat) (sched : List Nat) : Prop := ∀ t < T, threadEnd n T t - threadBegin n T t ≤ (sched.count t : Int)

/-! ## Row pointers -/

/-- The sum of the counts of the threads before `ii` (modules/parlinalgcpp/src/hypre_ops.cpp:255-262, 478-485). -/
def countsBefore (counts : List Int) (ii : Int) : Res Int := do
  let s ← rd counts 0
  forUp 1 ii s (fun i s => do
    let c ← rd counts i
    .ok (s + c))

/-- The sum of the counts of all threads (modules/parlinalgcpp/src/hypre_ops.cpp:272-279, 495-505). -/
def countsAll (counts : List Int) : Res Int :=
  forUp 0 (counts.length : Int) 0 (fun i s => do
    let c ← rd counts i
    .ok (s + c))

/-- Adding what the threads before have counted, for one row (modules/parlinalgcpp/src/hypre_ops.cpp:264-268, 487-491); thread 0 does not. -/
def addOffsets (i : Int) (st : (List Int × List Int) × Option (Int × Int)) : Res ((List Int × List Int) × Option (Int × Int)) :=
  match st.2 with
  | none => .ok st
  | some o => do
    let a ← rd st.1.1 i
    let di ← wr st.1.1 i (a + o.1)
    let b ← rd st.1.2 i
    let oi ← wr st.1.2 i (b + o.2)
    .ok ((di, oi), st.2)

/-- The row pointers of two blocks (modules/parlinalgcpp/src/hypre_ops.cpp:79-281 and 418-506): each thread counts the entries of its rows from 0; after the
barrier the others add what the threads before them have counted, and thread 0 writes the last row pointers. -/
def threadPtrs (n : Int) (T : Nat) (s1 s2 : List Nat) (row : Int → π → Res π) (cnt : π → Int × Int) (p0 : π) : Res (List Int × List Int) := do
  let zi ← mkVec (n + 1) (0 : Int)
  let r ← threadFor n T s1 (zi, zi) (List.replicate T p0) (fun i st => do
    let p ← row i st.2
    let di ← wr st.1.1 i (cnt st.2).1
    let oi ← wr st.1.2 i (cnt st.2).2
    .ok ((di, oi), p))
  let dc := r.2.map (fun p => (cnt p).1)
  let oc := r.2.map (fun p => (cnt p).2)
  let dt ← countsAll dc
  let ot ← countsAll oc
  let di ← wr r.1.1 n dt
  let oi ← wr r.1.2 n ot
  let offs ← (List.range T).mapM (fun (t : Nat) =>
    if t = 0 then (.ok none : Res (Option (Int × Int)))
    else do
      let a ← countsBefore dc t
      let b ← countsBefore oc t
      .ok (some (a, b)))
  let r ← threadFor n T s2 (di, oi) offs addOffsets
  .ok r.1

/-! ## Splitting the received rows -/

/-- Counting one received row (modules/parlinalgcpp/src/hypre_ops.cpp:458-466). -/
def extCountRow (first last : Int) (ext : Csr α) (i : Int) (s : Int × Int) : Res (Int × Int) :=
  ext.forRow i s (fun j s => do
    let c ← rd ext.indices j
    if isOther first last c then .ok (s.1, s.2 + 1) else .ok (s.1 + 1, s.2))

/-- The arrays of the second loop over the received rows. -/
structure ExtArrays (α : Type) where
  temp : List Int
  offdJ : List Int
  offdData : List α
  diagJ : List Int
  diagData : List α

/-- Storing one received row (modules/parlinalgcpp/src/hypre_ops.cpp:534-545); the thread's own variables are `cnt_offd` and `cnt_diag`. -/
def extFillRow (first last : Int) (ext : Csr α) (i : Int) (st : ExtArrays α × (Int × Int)) : Res (ExtArrays α × (Int × Int)) :=
  ext.forRow i st (fun j st => do
    let c ← rd ext.indices j
    let d ← rd ext.data j
    if isOther first last c then
      let temp ← wr st.1.temp st.2.1 c
      let oj ← wr st.1.offdJ st.2.1 c
      let od ← wr st.1.offdData st.2.1 d
      .ok ({ st.1 with temp := temp, offdJ := oj, offdData := od }, (st.2.1 + 1, st.2.2))
    else
      let dj ← wr st.1.diagJ st.2.2 (c - first)
      let dd ← wr st.1.diagData st.2.2 d
      .ok ({ st.1 with diagJ := dj, diagData := dd }, (st.2.1, st.2.2 + 1)))

/-- Renumbering one received row (modules/parlinalgcpp/src/hypre_ops.cpp:604-606). -/
def extMapRow (f : Int → Int) (oi : List Int) (i : Int) (oj : List Int) : Res (List Int) := do
  let lo ← rd oi i
  let hi ← rd oi (i + 1)
  forUp lo hi oj (fun j oj => do
    let c ← rd oj j
    wr oj j (f c))

/-- The orders in which the threads work off their rows, in the parts between the barriers. -/
structure Schedules where
  extCount : List Nat
  extAdd : List Nat
  extFill : List Nat
  extMap : List Nat
  count : List Nat
  add : List Nat
  fill : List Nat

/-- The schedules let every thread finish; `ne` is the number of received rows, `n` the number of rows. -/
def Schedules.Complete (ne n : Int) (T : Nat) (S : Schedules) : Prop :=
  (Par.Complete ne T S.extCount ∧ Par.Complete ne T S.extAdd ∧ Par.Complete ne T S.extFill ∧ Par.Complete ne T S.extMap) ∧
  (Par.Complete n T S.count ∧ Par.Complete n T S.add ∧ Par.Complete n T S.fill)

/-- The received rows, split, with threads (modules/parlinalgcpp/src/hypre_ops.cpp:418-608). -/
def splitExtT [Zero α] (T : Nat) (S : Schedules) (srt : Csr.Sorter) (search : List Int → Int → Int) (A B : ParMat α) (ext : Csr α) :
    Res (Csr α × Csr α × List Int) := do
  let n := A.offd.cols
  let first ← rd B.colStarts 0
  let last := first + B.diag.cols - 1
  let p ← threadPtrs n T S.extCount S.extAdd (extCountRow first last ext) (fun s => s) ((0 : Int), (0 : Int))
  let nd ← rd p.1 n
  let no ← rd p.2 n
  let dj ← mkVec nd (0 : Int)
  let dd ← mkVec nd (0 : α)
  let oj ← mkVec no (0 : Int)
  let od ← mkVec no (0 : α)
  let temp ← mkVec (no + (B.colMap.length : Int)) (0 : Int)
  let cnts ← (List.range T).mapM (fun (t : Nat) => do
    let o ← rd p.2 (threadBegin n T t)
    let d ← rd p.1 (threadBegin n T t)
    .ok (o, d))
  let f ← threadFor n T S.extFill (ExtArrays.mk temp oj od dj dd) cnts (extFillRow first last ext)
  let mapC ← productMap srt f.1.temp no B.colMap
  let g ← threadFor n T S.extMap f.1.offdJ (List.replicate T ()) (fun i st => do
    let oj ← extMapRow (search mapC) p.2 i st.1
    .ok (oj, ()))
  .ok (⟨n, B.diag.cols, p.1, f.1.diagJ, f.1.diagData⟩, ⟨n, (mapC.length : Int), p.2, g.1, f.1.offdData⟩, mapC)

/-! ## The two passes -/

/-- `RowSizes` (modules/parlinalgcpp/src/hypre_ops.cpp:33-295) with threads; each has its own `B_marker`. -/
def rowSizesT (T : Nat) (S : Schedules) (A B : ParMat α) (extDiag extOffd : Csr α) (mapBC : List Int) (allsquare : Bool) (numColsOffdC : Int) :
    Res (List Int × List Int) := do
  let marker ← mkVec (B.diag.cols + numColsOffdC) (-1 : Int)
  threadPtrs A.diag.rows T S.count S.add (sizeRow A B extDiag extOffd mapBC allsquare) (fun s => (s.diag, s.offd)) (SizeState.mk marker 0 0)

/-- The arrays of the product. -/
structure FillArrays (α : Type) where
  diagJ : List Int
  diagData : List α
  offdJ : List Int
  offdData : List α

/-- One row of the second pass; the thread's own variables are `B_marker`, `jj_count_diag` and `jj_count_offd`. -/
def fillRowT [Zero α] [Add α] [Mul α] (A B : ParMat α) (extDiag extOffd : Csr α) (mapBC : List Int) (allsquare : Bool) (i1 : Int)
    (st : FillArrays α × SizeState) : Res (FillArrays α × SizeState) := do
  let r ← fillRow A B extDiag extOffd mapBC allsquare i1
    ⟨st.2.marker, ⟨st.2.diag, st.1.diagJ, st.1.diagData⟩, ⟨st.2.offd, st.1.offdJ, st.1.offdData⟩⟩
  .ok (⟨r.diag.ix, r.diag.dt, r.offd.ix, r.offd.dt⟩, ⟨r.marker, r.diag.cnt, r.offd.cnt⟩)

/-- `ParMatrix::Mult(const ParMatrix& other)` (modules/parlinalgcpp/src/hypre_ops.cpp:297-891) on one process, with threads. -/
def multLocalT [Zero α] [Add α] [Mul α] (T : Nat) (S : Schedules) (srt : Csr.Sorter) (search : List Int → Int → Int) (reorder : Csr α → Csr α)
    (A B : ParMat α) (ext : Csr α) : Res (ParMat α) := do
  cassert (A.globalCols = B.globalRows ∧ A.diag.cols = B.diag.rows)
  let allsquare : Bool := A.diag.rows = B.diag.cols
  let s ← splitExtT T S srt search A B ext
  let mapC := s.2.2
  let mapBC ← mapBToC mapC B.colMap
  let sizes ← rowSizesT T S A B s.1 s.2.1 mapBC allsquare (mapC.length : Int)
  let nd ← rd sizes.1 A.diag.rows
  let no ← rd sizes.2 A.diag.rows
  let dj ← mkVec nd (0 : Int)
  let dd ← mkVec nd (0 : α)
  let oj ← mkVec no (0 : Int)
  let od ← mkVec no (0 : α)
  let marker ← mkVec (B.diag.cols + (mapC.length : Int)) (-1 : Int)
  let privs ← (List.range T).mapM (fun (t : Nat) => do
    let d ← rd sizes.1 (threadBegin A.diag.rows T t)
    let o ← rd sizes.2 (threadBegin A.diag.rows T t)
    .ok (SizeState.mk marker d o))
  let f ← threadFor A.diag.rows T S.fill (FillArrays.mk dj dd oj od) privs (fillRowT A B s.1 s.2.1 mapBC allsquare)
  let c1 ← rd B.colStarts 1
  let c0 ← rd B.colStarts 0
  let diag ← Csr.ofArrays sizes.1 f.1.diagJ f.1.diagData A.diag.rows (c1 - c0)
  let offd ← Csr.ofArrays sizes.2 f.1.offdJ f.1.offdData A.diag.rows (mapC.length : Int)
  ParMat.new reorder A.rowStarts B.colStarts diag offd mapC

/-- `ParMatrix::Mult(const ParMatrix& other)` on all processes, with threads; every process has its own schedules. -/
def parMultT [Zero α] [Add α] [Mul α] (T : Nat) (Ss : List Schedules) (srt : Csr.Sorter) (search : List Int → Int → Int) (reorder : Csr α → Csr α)
    (extract : List (ParMat α) → ParMat α → Csr α) (As Bs : List (ParMat α)) : Res (List (ParMat α)) :=
  ((As.zip Bs).zip Ss).mapM (fun p => multLocalT T p.2 srt search reorder p.1.1 p.1.2 (if As.length > 1 then extract Bs p.1.1 else nullCsr))

end Par
end Linalg
