import Verif.Model.Par
import Verif.Spec.Coo
import Verif.Spec.Sort

/-!
# What distributed matrices mean
-/

namespace Linalg
open Cpp

variable {α R : Type}

/-- The contract of `hypre_CSRMatrixReorder`: only the order of the entries within each row changes. -/
def Reorders (reorder : Csr α → Csr α) : Prop :=
  ∀ A, A.WF → (reorder A).WF ∧ (reorder A).rows = A.rows ∧ (reorder A).cols = A.cols ∧
    ∀ i, ((reorder A).row i).Perm (A.row i)

/-- The contract of `hypre_BinarySearch`: in an ascending list it finds a value that is there. -/
def IsSearch (search : List Int → Int → Int) : Prop :=
  ∀ (l : List Int) (v : Int), l.Pairwise (· < ·) → v ∈ l → 0 ≤ search l v ∧ search l v < (l.length : Int) ∧ vecAt l (search l v) = v

/-- `[first, last, total]`: a process owns the range `first ≤ i < last` of the indices `0 ≤ i < total`. -/
structure IsStarts (s : List Int) (first last total : Int) : Prop where
  eq : s = [first, last, total]
  first_nonneg : 0 ≤ first
  le : first ≤ last
  last_le : last ≤ total

/-- The share of one process in a distributed matrix: the rows it owns, split into the columns it owns and the others, which are
numbered by an ascending list of global columns. -/
structure ParMat.WF (M : ParMat α) (r0 r1 rn c0 c1 cn : Int) : Prop where
  row_starts : IsStarts M.rowStarts r0 r1 rn
  col_starts : IsStarts M.colStarts c0 c1 cn
  rows_eq : M.rows = r1 - r0
  cols_eq : M.cols = c1 - c0
  diag_wf : M.diag.WF
  offd_wf : M.offd.WF
  diag_rows : M.diag.rows = r1 - r0
  diag_cols : M.diag.cols = c1 - c0
  offd_rows : M.offd.rows = r1 - r0
  offd_cols : M.offd.cols = M.colMap.length
  map_sorted : M.colMap.Pairwise (· < ·)
  map_range : ∀ c ∈ M.colMap, 0 ≤ c ∧ c < cn
  map_other : ∀ c ∈ M.colMap, c < c0 ∨ c1 ≤ c

/-- The coefficient in local row `i` and global column `c`. -/
def ParMat.coef [AddCommMonoid R] (M : ParMat R) (i c : Int) : R :=
  (if vecAt M.colStarts 0 ≤ c ∧ c < vecAt M.colStarts 1 then M.diag.coef i (c - vecAt M.colStarts 0) else 0)
    + ∑ k ∈ Finset.Ico (0 : Int) M.colMap.length, if vecAt M.colMap k = c then M.offd.coef i k else 0

/-- A matrix distributed over processes: process `p` owns the rows from `ro[p]` to `ro[p + 1]` and the columns from `co[p]` to
`co[p + 1]`, and the ranges cover everything. -/
structure Par.IsDist (Ms : List (ParMat α)) (ro co : List Int) : Prop where
  rows_len : ro.length = Ms.length + 1
  cols_len : co.length = Ms.length + 1
  rows_first : vecAt ro 0 = 0
  cols_first : vecAt co 0 = 0
  rows_mono : ro.Pairwise (· ≤ ·)
  cols_mono : co.Pairwise (· ≤ ·)
  share : ∀ (p : Nat) (h : p < Ms.length), Ms[p].WF (vecAt ro p) (vecAt ro (p + 1)) (vecAt ro Ms.length)
    (vecAt co p) (vecAt co (p + 1)) (vecAt co Ms.length)

/-- The coefficient of a distributed matrix in global row `g` and global column `c`. -/
def Par.globalCoef [AddCommMonoid R] (Ms : List (ParMat R)) (g c : Int) : R :=
  (Ms.map (fun M => M.coef (g - vecAt M.rowStarts 0) c)).sum

/-- The contract of `hypre_ParCSRMatrixExtractBExt`: one row for each element of the column map, equal to the row of the distributed
matrix with that number, in global columns. -/
def Par.IsExtract [AddCommMonoid R] (extract : List (ParMat R) → ParMat R → Csr R) (Bs : List (ParMat R)) (cn : Int) (A : ParMat R) : Prop :=
  (extract Bs A).WF ∧ (extract Bs A).rows = A.colMap.length ∧ (extract Bs A).cols = cn ∧
    ∀ k c : Int, 0 ≤ k → k < A.colMap.length → (extract Bs A).coef k c = Par.globalCoef Bs (vecAt A.colMap k) c

/-- The stored off-process entries as (local row, global column, value), in storage order. -/
def ParMat.offdEntries (M : ParMat α) : List (Int × Int × α) :=
  (iota M.offd.rows.toNat).flatMap (fun i => (M.offd.row i).map (fun e => (i, vecAt M.colMap e.1, e.2)))

/-- The value of the first stored off-process entry of global column `c` if it is in local row `i`, otherwise 0. -/
def ParMat.firstAt [Zero R] (M : ParMat R) (i c : Int) : R :=
  match M.offdEntries.find? (fun e => e.2.1 = c) with
  | some e => if e.1 = i then e.2.2 else 0
  | none => 0

/-- How many vertices belong to processes before `p`. -/
def Par.below (part : List Int) (p : Int) : Int := (part.countP (· < p) : Int)

/-- The new number of vertex `v`: first the vertices of lower processes, then the earlier vertices of the same process. -/
def Par.newIndex (part : List Int) (v : Int) : Int :=
  Par.below part (vecAt part v) + ((part.take v.toNat).count (vecAt part v) : Int)

end Linalg
