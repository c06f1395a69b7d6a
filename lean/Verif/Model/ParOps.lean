import Verif.Model.Par

/-!
# Products of distributed matrices (modules/parlinalgcpp/src/hypre_ops.cpp)

Compiled without OpenMP, so `hypre_NumThreads()` and `hypre_NumActiveThreads()` are 1, `hypre_GetThreadNum()` is 0 and every row
range of a thread is the whole range.  The hypre structures of a matrix point into its own blocks (`HypreCreate`,
modules/parlinalgcpp/src/parmatrix.cpp:157-188), so they are the blocks here.  Arrays from `hypre_CTAlloc` hold zeros; a null pointer is
an empty array, which nothing can be read from.

From hypre: `hypre_BinarySearch(list, value, n)` is the parameter `search`, and `hypre_ParCSRMatrixExtractBExt(B, A, 1)`, the rows
of `B` that belong to the columns of `A` other processes own, in global column numbers, is the parameter `ext`.
-/

namespace Linalg
open Cpp

variable {α : Type}

namespace Par

/-- A null pointer in place of the hypre matrix. -/
def nullCsr : Csr α := ⟨0, 0, [], [], []⟩

/-! ## Splitting the received rows -/

/-- The test whether a global column belongs to another process (modules/parlinalgcpp/src/hypre_ops.cpp:459, 535). -/
def isOther (first last c : Int) : Bool := c < first || c > last

/-- The first loop over the received rows (modules/parlinalgcpp/src/hypre_ops.cpp:450-467): the row pointers of the own and of the other
columns and the two sizes. -/
def extSizes (first last n : Int) (ext : Csr α) (di oi : List Int) : Res ((List Int × List Int) × (Int × Int)) :=
  forUp 0 n ((di, oi), ((0 : Int), (0 : Int))) (fun i st => do
    let di ← wr st.1.1 i st.2.1
    let oi ← wr st.1.2 i st.2.2
    let s ← ext.forRow i st.2 (fun j s => do
      let c ← rd ext.indices j
      if isOther first last c then .ok (s.1, s.2 + 1) else .ok (s.1 + 1, s.2))
    .ok ((di, oi), s))

/-- The variables of the second loop over the received rows. -/
structure ExtState (α : Type) where
  temp : List Int
  cntOffd : Int
  offdJ : List Int
  offdData : List α
  cntDiag : Int
  diagJ : List Int
  diagData : List α

/-- The second loop over the received rows (modules/parlinalgcpp/src/hypre_ops.cpp:529-546). -/
def extFill (first last n : Int) (ext : Csr α) (st : ExtState α) : Res (ExtState α) :=
  forUp 0 n st (fun i st => ext.forRow i st (fun j st => do
    let c ← rd ext.indices j
    let d ← rd ext.data j
    if isOther first last c then
      let temp ← wr st.temp st.cntOffd c
      let oj ← wr st.offdJ st.cntOffd c
      let od ← wr st.offdData st.cntOffd d
      .ok { st with temp := temp, offdJ := oj, offdData := od, cntOffd := st.cntOffd + 1 }
    else
      let dj ← wr st.diagJ st.cntDiag (c - first)
      let dd ← wr st.diagData st.cntDiag d
      .ok { st with diagJ := dj, diagData := dd, cntDiag := st.cntDiag + 1 }))

/-! ## The column map of the product -/

/-- Removing repeated values from a sorted array in place (modules/parlinalgcpp/src/hypre_ops.cpp:575-585): how many there are and the
array. -/
def uniq (temp : List Int) : Res (Int × List Int) := do
  let v ← rd temp 0
  let st ← forUp 1 (temp.length : Int) ((1 : Int), v, temp) (fun i st => do
    let t ← rd st.2.2 i
    if t > st.2.1 then
      let temp ← wr st.2.2 st.1 t
      .ok (st.1 + 1, t, temp)
    else .ok st)
  .ok (st.1, st.2.2)

/-- The column map of the product (modules/parlinalgcpp/src/hypre_ops.cpp:561-596): `temp` already holds the received columns, in its
first `cnt` elements. -/
def productMap (srt : Csr.Sorter) (temp : List Int) (cnt : Int) (mapB : List Int) : Res (List Int) :=
  if cnt ≠ 0 ∨ (mapB.length : Int) ≠ 0 then do
    let temp ← forUp 0 (mapB.length : Int) temp (fun i temp => do
      let c ← rd mapB i
      wr temp (cnt + i) c)
    let u ← uniq (srt (fun a b => a < b) temp)
    let m ← mkVec u.1 (0 : Int)
    forUp 0 u.1 m (fun i m => do
      let c ← rd u.2 i
      wr m i c)
  else .ok []

/-- `map_B_to_C` (modules/parlinalgcpp/src/hypre_ops.cpp:613-630): the position in the new map of every column of the old one.  After the
`break` nothing changes. -/
def mapBToC (mapC mapB : List Int) : Res (List Int) :=
  if (mapB.length : Int) ≠ 0 then do
    let m ← mkVec (mapB.length : Int) (0 : Int)
    let st ← forUp 0 (mapC.length : Int) ((0 : Int), m) (fun i st =>
      if st.1 = (mapB.length : Int) then .ok st
      else do
        let c ← rd mapC i
        let b ← rd mapB st.1
        if c = b then
          let m ← wr st.2 st.1 i
          .ok (st.1 + 1, m)
        else .ok st)
    .ok st.2
  else .ok []

/-! ## RowSizes -/

/-- Counting an entry in column `i3` of the marker unless this row has it already (modules/parlinalgcpp/src/hypre_ops.cpp:162-166,
173-177, 204-208, 227-231). -/
def countHit (rowBegin i3 : Int) (marker : List Int) (cnt : Int) : Res (List Int × Int) := do
  let m ← rd marker i3
  if m < rowBegin then
    let marker ← wr marker i3 cnt
    .ok (marker, cnt + 1)
  else .ok (marker, cnt)

/-- The marker and the two counters of `RowSizes`. -/
structure SizeState where
  marker : List Int
  diag : Int
  offd : Int

/-- An entry of the diagonal block. -/
def SizeState.hitDiag (rowBegin i3 : Int) (st : SizeState) : Res SizeState := do
  let r ← countHit rowBegin i3 st.marker st.diag
  .ok { st with marker := r.1, diag := r.2 }

/-- An entry of the other block. -/
def SizeState.hitOffd (rowBegin i3 : Int) (st : SizeState) : Res SizeState := do
  let r ← countHit rowBegin i3 st.marker st.offd
  .ok { st with marker := r.1, offd := r.2 }

/-- One row of `RowSizes` (modules/parlinalgcpp/src/hypre_ops.cpp:129-235). -/
def sizeRow (A B : ParMat α) (extDiag extOffd : Csr α) (mapBC : List Int) (allsquare : Bool) (i1 : Int) (st : SizeState) :
    Res SizeState := do
  let beginDiag := st.diag
  let beginOffd := st.offd
  let st ← (if allsquare then do
      let marker ← wr st.marker i1 st.diag
      .ok { st with marker := marker, diag := st.diag + 1 }
    else .ok st : Res SizeState)
  let st ← (if A.offd.cols ≠ 0 then
      A.offd.forRow i1 st (fun jj2 st => do
        let i2 ← rd A.offd.indices jj2
        let st ← extOffd.forRow i2 st (fun jj3 st => do
          let c ← rd extOffd.indices jj3
          st.hitOffd beginOffd (B.diag.cols + c))
        extDiag.forRow i2 st (fun jj3 st => do
          let c ← rd extDiag.indices jj3
          st.hitDiag beginDiag c))
    else .ok st : Res SizeState)
  A.diag.forRow i1 st (fun jj2 st => do
    let i2 ← rd A.diag.indices jj2
    let st ← B.diag.forRow i2 st (fun jj3 st => do
      let c ← rd B.diag.indices jj3
      st.hitDiag beginDiag c)
    if B.offd.cols ≠ 0 then
      B.offd.forRow i2 st (fun jj3 st => do
        let c ← rd B.offd.indices jj3
        let m ← rd mapBC c
        st.hitOffd beginOffd (B.diag.cols + m))
    else .ok st)

/-- `RowSizes` (modules/parlinalgcpp/src/hypre_ops.cpp:33-295): the row pointers of the two blocks. -/
def rowSizes (A B : ParMat α) (extDiag extOffd : Csr α) (mapBC : List Int) (allsquare : Bool) (numColsOffdC : Int) :
    Res (List Int × List Int) := do
  let ci ← mkVec (A.diag.rows + 1) (0 : Int)
  let marker ← mkVec (B.diag.cols + numColsOffdC) (-1 : Int)
  let st ← forUp 0 A.diag.rows (ci, ci, SizeState.mk marker 0 0) (fun i1 st => do
    let s ← sizeRow A B extDiag extOffd mapBC allsquare i1 st.2.2
    let di ← wr st.1 i1 st.2.2.diag
    let oi ← wr st.2.1 i1 st.2.2.offd
    .ok (di, oi, s))
  let di ← wr st.1 A.diag.rows st.2.2.diag
  let oi ← wr st.2.1 A.diag.rows st.2.2.offd
  .ok (di, oi)

/-! ## The second pass -/

/-- One block under construction: `jj_count`, the columns and the values. -/
structure Side (α : Type) where
  cnt : Int
  ix : List Int
  dt : List α

/-- Adding a product in column `i3` of the marker (modules/parlinalgcpp/src/hypre_ops.cpp:756-766, 774-784, 813-823, 839-849); `offset` is
subtracted from the stored column. -/
def Side.hit [Add α] (offset rowBegin i3 : Int) (v : α) (marker : List Int) (S : Side α) : Res (List Int × Side α) := do
  let m ← rd marker i3
  if m < rowBegin then
    let marker ← wr marker i3 S.cnt
    let dt ← wr S.dt S.cnt v
    let ix ← wr S.ix S.cnt (i3 - offset)
    .ok (marker, ⟨S.cnt + 1, ix, dt⟩)
  else
    let old ← rd S.dt m
    let dt ← wr S.dt m (old + v)
    .ok (marker, { S with dt := dt })

/-- The marker and the two blocks under construction. -/
structure FillState (α : Type) where
  marker : List Int
  diag : Side α
  offd : Side α

/-- A product in the diagonal block. -/
def FillState.hitDiag [Add α] (rowBegin i3 : Int) (v : α) (st : FillState α) : Res (FillState α) := do
  let r ← st.diag.hit 0 rowBegin i3 v st.marker
  .ok { st with marker := r.1, diag := r.2 }

/-- A product in the other block. -/
def FillState.hitOffd [Add α] (offset rowBegin i3 : Int) (v : α) (st : FillState α) : Res (FillState α) := do
  let r ← st.offd.hit offset rowBegin i3 v st.marker
  .ok { st with marker := r.1, offd := r.2 }

/-- One row of the second pass (modules/parlinalgcpp/src/hypre_ops.cpp:719-852). -/
def fillRow [Zero α] [Add α] [Mul α] (A B : ParMat α) (extDiag extOffd : Csr α) (mapBC : List Int) (allsquare : Bool) (i1 : Int)
    (st : FillState α) : Res (FillState α) := do
  let beginDiag := st.diag.cnt
  let beginOffd := st.offd.cnt
  let st ← (if allsquare then do
      let marker ← wr st.marker i1 st.diag.cnt
      let dt ← wr st.diag.dt st.diag.cnt 0
      let ix ← wr st.diag.ix st.diag.cnt i1
      .ok { st with marker := marker, diag := ⟨st.diag.cnt + 1, ix, dt⟩ }
    else .ok st : Res (FillState α))
  let st ← (if A.offd.cols ≠ 0 then
      A.offd.forRow i1 st (fun jj2 st => do
        let i2 ← rd A.offd.indices jj2
        let a ← rd A.offd.data jj2
        let st ← extOffd.forRow i2 st (fun jj3 st => do
          let c ← rd extOffd.indices jj3
          let b ← rd extOffd.data jj3
          st.hitOffd B.diag.cols beginOffd (B.diag.cols + c) (a * b))
        extDiag.forRow i2 st (fun jj3 st => do
          let c ← rd extDiag.indices jj3
          let b ← rd extDiag.data jj3
          st.hitDiag beginDiag c (a * b)))
    else .ok st : Res (FillState α))
  A.diag.forRow i1 st (fun jj2 st => do
    let i2 ← rd A.diag.indices jj2
    let a ← rd A.diag.data jj2
    let st ← B.diag.forRow i2 st (fun jj3 st => do
      let c ← rd B.diag.indices jj3
      let b ← rd B.diag.data jj3
      st.hitDiag beginDiag c (a * b))
    if B.offd.cols ≠ 0 then
      B.offd.forRow i2 st (fun jj3 st => do
        let c ← rd B.offd.indices jj3
        let m ← rd mapBC c
        let b ← rd B.offd.data jj3
        st.hitOffd B.diag.cols beginOffd (B.diag.cols + m) (a * b))
    else .ok st)

/-! ## ParMatrix::Mult -/

/-- The received rows, split (modules/parlinalgcpp/src/hypre_ops.cpp:418-608): the part in own columns, the part in other columns, which
end up numbered by the column map of the product, and that map.  The number of columns recorded in the two parts is not in the code. -/
def splitExt [Zero α] (srt : Csr.Sorter) (search : List Int → Int → Int) (A B : ParMat α) (ext : Csr α) :
    Res (Csr α × Csr α × List Int) := do
  let n := A.offd.cols
  let first ← rd B.colStarts 0
  let last := first + B.diag.cols - 1
  let zi ← mkVec (n + 1) (0 : Int)
  let p ← extSizes first last n ext zi zi
  let di ← wr p.1.1 n p.2.1
  let oi ← wr p.1.2 n p.2.2
  let dj ← mkVec p.2.1 (0 : Int)
  let dd ← mkVec p.2.1 (0 : α)
  let oj ← mkVec p.2.2 (0 : Int)
  let od ← mkVec p.2.2 (0 : α)
  let temp ← mkVec (p.2.2 + (B.colMap.length : Int)) (0 : Int)
  let o0 ← rd oi 0
  let d0 ← rd di 0
  let st ← extFill first last n ext ⟨temp, o0, oj, od, d0, dj, dd⟩
  let mapC ← productMap srt st.temp p.2.2 B.colMap
  let oj ← forUp 0 n st.offdJ (fun i oj => do
    let lo ← rd oi i
    let hi ← rd oi (i + 1)
    forUp lo hi oj (fun j oj => do
      let c ← rd oj j
      wr oj j (search mapC c)))
  .ok (⟨n, B.diag.cols, di, st.diagJ, st.diagData⟩, ⟨n, (mapC.length : Int), oi, oj, st.offdData⟩, mapC)

/-- `ParMatrix::Mult(const ParMatrix& other)` (modules/parlinalgcpp/src/hypre_ops.cpp:297-891) on one process. -/
def multLocal [Zero α] [Add α] [Mul α] (srt : Csr.Sorter) (search : List Int → Int → Int) (reorder : Csr α → Csr α) (A B : ParMat α)
    (ext : Csr α) : Res (ParMat α) := do
  cassert (A.globalCols = B.globalRows ∧ A.diag.cols = B.diag.rows)
  let allsquare : Bool := A.diag.rows = B.diag.cols
  let s ← splitExt srt search A B ext
  let mapC := s.2.2
  let mapBC ← mapBToC mapC B.colMap
  let sizes ← rowSizes A B s.1 s.2.1 mapBC allsquare (mapC.length : Int)
  let nd ← rd sizes.1 A.diag.rows
  let no ← rd sizes.2 A.diag.rows
  let dj ← mkVec nd (0 : Int)
  let dd ← mkVec nd (0 : α)
  let oj ← mkVec no (0 : Int)
  let od ← mkVec no (0 : α)
  let d0 ← rd sizes.1 0
  let o0 ← rd sizes.2 0
  let marker ← mkVec (B.diag.cols + (mapC.length : Int)) (-1 : Int)
  let st ← forUp 0 A.diag.rows (FillState.mk marker ⟨d0, dj, dd⟩ ⟨o0, oj, od⟩) (fun i1 st =>
    fillRow A B s.1 s.2.1 mapBC allsquare i1 st)
  let c1 ← rd B.colStarts 1
  let c0 ← rd B.colStarts 0
  let diag ← Csr.ofArrays sizes.1 st.diag.ix st.diag.dt A.diag.rows (c1 - c0)
  let offd ← Csr.ofArrays sizes.2 st.offd.ix st.offd.dt A.diag.rows (mapC.length : Int)
  ParMat.new reorder A.rowStarts B.colStarts diag offd mapC

/-- `ParMatrix::Mult(const ParMatrix& other)` on all processes; `extract` is `hypre_ParCSRMatrixExtractBExt`, which is only called if
there is more than one process (modules/parlinalgcpp/src/hypre_ops.cpp:403-416). -/
def parMult [Zero α] [Add α] [Mul α] (srt : Csr.Sorter) (search : List Int → Int → Int) (reorder : Csr α → Csr α)
    (extract : List (ParMat α) → ParMat α → Csr α) (As Bs : List (ParMat α)) : Res (List (ParMat α)) :=
  (As.zip Bs).mapM (fun p => multLocal srt search reorder p.1 p.2 (if As.length > 1 then extract Bs p.1 else nullCsr))

end Par
end Linalg
