import Verif.Spec.ParVec
import Verif.Model.L1Norms

/-!
# What the row norms of the l1 smoothers mean
-/

namespace Linalg
open Cpp

variable {R : Type}

/-- The sum of `f` of the stored values of row `i`. -/
def Csr.rowSum [AddCommMonoid R] (A : Csr R) (i : Int) (f : R → R) : R := ((A.row i).map (fun e => f e.2)).sum

/-- The first stored value of row `i` (0 if there is none). -/
def Csr.rowFirst [Zero R] (A : Csr R) (i : Int) : R := match A.row i with
  | [] => 0
  | e :: _ => e.2

/-- What each option means: 1 the l1 norm of the row, 2 the first own value and the l1 norm of the rest on other processes, 3 the squared
l2 norm, 4 like 2 with half of the rest, and only the first own value if the rest is at most two thirds of it; otherwise the old value. -/
def Par.rowNorm [Field R] [LinearOrder R] (M : ParMat R) (option i : Int) (old : R) : R :=
  if option = 1 then M.diag.rowSum i (fun d => |d|) + M.offd.rowSum i (fun d => |d|)
  else if option = 2 then |M.diag.rowFirst i| + M.offd.rowSum i (fun d => |d|)
  else if option = 3 then M.diag.rowSum i (fun d => d * d) + M.offd.rowSum i (fun d => d * d)
  else if option = 4 then
    if M.offd.rowSum i (fun d => |d|) ≤ 2 / 3 * |M.diag.rowFirst i| then |M.diag.rowFirst i|
    else |M.diag.rowFirst i| + M.offd.rowSum i (fun d => |d|) / 2
  else old

end Linalg
