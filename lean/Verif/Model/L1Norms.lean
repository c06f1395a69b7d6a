import Verif.Model.Par

/-!
# The row norms of the l1 smoothers (modules/parlinalgcpp/src/hypre_ops.cpp)

`l1_norm[i]` is used as the running sum; here the sum runs in a variable that is stored at the end of the row.  Of the global
`hypre_error_flag` only whether this call sets it is modelled.
-/

namespace Linalg
open Cpp

variable {α : Type}

namespace Par

/-- The loop over the stored values of a row that adds `f` of each to a sum
(modules/parlinalgcpp/src/hypre_ops.cpp:1195-1198, 1203-1206, 1221-1224, 1235-1238, 1241-1244, 1257-1260). -/
def addRow [Add α] (A : Csr α) (i : Int) (f : α → α) (s : α) : Res α :=
  A.forRow i s (fun j s => do
    let d ← rd A.data j
    .ok (s + f d))

/-- The same for the other columns, skipped when there are none (modules/parlinalgcpp/src/hypre_ops.cpp:1201-1207 and alike). -/
def addOffd [Add α] (M : ParMat α) (i : Int) (f : α → α) (s : α) : Res α :=
  if M.offd.cols ≠ 0 then addRow M.offd i f s else .ok s

/-- `A_diag_data[A_diag_I[i]]`: the first value of row `i`, read through a pointer. -/
def firstVal (A : Csr α) (i : Int) : Res α := do
  let p ← rd A.indptr i
  rd A.data p

/-- The value of `l1_norm[i]` for one row and one option (modules/parlinalgcpp/src/hypre_ops.cpp:1188-1270); `old` is the value before. -/
def l1Row [Field α] [LinearOrder α] (M : ParMat α) (option i : Int) (old : α) : Res α :=
  if option = 1 then do
    let s ← addRow M.diag i (fun d => |d|) 0
    addOffd M i (fun d => |d|) s
  else if option = 2 then do
    let d ← firstVal M.diag i
    addOffd M i (fun d => |d|) |d|
  else if option = 3 then do
    let s ← addRow M.diag i (fun d => d * d) 0
    addOffd M i (fun d => d * d) s
  else if option = 4 then do
    let d ← firstVal M.diag i
    let s ← addOffd M i (fun d => 1 / 2 * |d|) |d|
    if s ≤ 4 / 3 * |d| then .ok |d| else .ok s
  else .ok old

/-- `hypre_ParCSRComputeL1Norms(par_A, option, l1_norm)` (modules/parlinalgcpp/src/hypre_ops.cpp:1168-1289), on one process: the norms and
whether the error flag is set. -/
def l1Norms [Field α] [LinearOrder α] (M : ParMat α) (option : Int) (l1 : List α) : Res (List α × Bool) := do
  let l1 := resize l1 M.diag.rows.toNat 0
  let l1 ← forUp 0 M.diag.rows l1 (fun i l1 => do
    let old ← rd l1 i
    let v ← l1Row M option i old
    wr l1 i v)
  let l1 ← forUp 0 M.diag.rows l1 (fun i l1 => do
    let d ← firstVal M.diag i
    if d < 0 then
      let v ← rd l1 i
      wr l1 i (-v)
    else .ok l1)
  .ok (l1, l1.any (fun v => |v| = 0))

end Par
end Linalg
