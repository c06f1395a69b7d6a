import Verif.Spec.Csr
import Verif.Model.SparseSolve
import Mathlib.LinearAlgebra.Matrix.Determinant.Basic

/-!
# What UMFPACK is assumed to compute, and solvers as values
-/

namespace Linalg
open Cpp

variable {R S N : Type}

/-- The square matrix a CSR matrix stands for. -/
def Csr.mat [AddMonoid R] (A : Csr R) (n : Nat) : Matrix (Fin n) (Fin n) R := fun i j => A.coef i j

/-- The matrix that three arrays stand for when they are read by columns: column `j` has the entries from `Ap[j]` to `Ap[j + 1]`, an
entry `p` being at row `Ai[p]` with value `Ax[p]`. -/
def colMat [AddMonoid R] (n : Nat) (Ap Ai : List Int) (Ax : List R) : Matrix (Fin n) (Fin n) R := fun i j =>
  ((((Ai.zip Ax).drop (Ap.getD j 0).toNat).take (Ap.getD (j + 1) 0 - Ap.getD j 0).toNat).filterMap
    (fun e => if e.1 = (i : Int) then some e.2 else none)).sum

/-- The arrays UMFPACK accepts: `Ap` starts at 0 and does not decrease, the row numbers of a column are in range and strictly ascending. -/
def ColOk (n : Nat) (Ap Ai : List Int) : Prop :=
  0 < n ∧ Ap.getD 0 0 = 0 ∧ ∀ j < n, Ap.getD j 0 ≤ Ap.getD (j + 1) 0 ∧
    (∀ r ∈ (Ai.drop (Ap.getD j 0).toNat).take (Ap.getD (j + 1) 0 - Ap.getD j 0).toNat, 0 ≤ r ∧ r < (n : Int)) ∧
    ((Ai.drop (Ap.getD j 0).toNat).take (Ap.getD (j + 1) 0 - Ap.getD j 0).toNat).Pairwise (· < ·)

/-- UMFPACK in exact arithmetic and with enough memory, for square matrices: `umfpack_di_symbolic` reports success exactly for arrays it
accepts, `umfpack_di_numeric` exactly for invertible matrices, and `umfpack_di_solve` solves the system or the transposed system. -/
structure Umfpack.Exact [CommRing R] (U : Umfpack R S N) : Prop where
  symbolic : ∀ (n : Nat) (Ap Ai : List Int) (Ax : List R), Ap.length = n + 1 → (Ai.length : Int) = Ap.getD n 0 → Ax.length = Ai.length →
    ((U.symbolic n n Ap Ai Ax).1 = 0 ↔ ColOk n Ap Ai)
  numeric : ∀ (n : Nat) (Ap Ai : List Int) (Ax : List R), Ap.length = n + 1 → (Ai.length : Int) = Ap.getD n 0 → Ax.length = Ai.length →
    ColOk n Ap Ai →
    ((U.numeric Ap Ai Ax (U.symbolic n n Ap Ai Ax).2).1 = 0 ↔ IsUnit (colMat n Ap Ai Ax).det)
  solve : ∀ (n : Nat) (Ap Ai : List Int) (Ax b : List R), Ap.length = n + 1 → (Ai.length : Int) = Ap.getD n 0 → Ax.length = Ai.length →
    ColOk n Ap Ai → IsUnit (colMat n Ap Ai Ax).det → b.length = n → ∀ At : Bool,
    (U.solve At Ap Ai Ax b (U.numeric Ap Ai Ax (U.symbolic n n Ap Ai Ax).2).2).2 = 0 ∧
    (U.solve At Ap Ai Ax b (U.numeric Ap Ai Ax (U.symbolic n n Ap Ai Ax).2).2).1.length = n ∧
    (if At then (colMat n Ap Ai Ax).transpose else colMat n Ap Ai Ax).mulVec
        (fun i => (U.solve At Ap Ai Ax b (U.numeric Ap Ai Ax (U.symbolic n n Ap Ai Ax).2).2).1.getD i 0)
      = fun i : Fin n => b.getD i 0

/-! ## Solvers as values: a solver is its matrix -/

namespace SolverVals

/-- The matrix of a solver. -/
def get (vs : List (Option (Csr R))) (i : Nat) : Res (Csr R) :=
  match vs[i]? with
  | some (some A) => .ok A
  | _ => .error .undefinedBehaviour

open Classical in
/-- One statement: what is moved from has the empty matrix. -/
noncomputable def step [CommRing R] (vs : List (Option (Csr R))) : SolverStmt R → Res (List (Option (Csr R)))
  | .make A =>
    if A.rows = A.cols ∧ (A.nnz = 0 ∨ A.NoDup ∧ IsUnit (A.mat A.rows.toNat).det) then .ok (vs ++ [some A]) else .error .assertFail
  | .copy i => do
    let A ← get vs i
    .ok (vs ++ [some A])
  | .move i => do
    let A ← get vs i
    .ok (vs.set i (some Csr.empty) ++ [some A])
  | .assign i j => do
    let _ ← get vs i
    let A ← get vs j
    .ok (vs.set i (some A))
  | .assignMove i j => do
    let A ← get vs j
    let _ ← get vs i
    .ok ((vs.set j (some Csr.empty)).set i (some A))
  | .swap i j => do
    let A ← get vs i
    let B ← get vs j
    .ok ((vs.set j (some A)).set i (some B))
  | .destroy i => do
    let _ ← get vs i
    .ok (vs.set i none)

/-- The statements that work: no move, no copy of a solver whose matrix stores nothing; matrices are well formed. -/
def SafeStep (vs : List (Option (Csr R))) : SolverStmt R → Prop
  | .make A => A.WF
  | .copy i => ∀ A, get vs i = .ok A → 0 < A.nnz
  | .assign _ j => ∀ A, get vs j = .ok A → 0 < A.nnz
  | .move _ => False
  | .assignMove _ _ => False
  | .swap _ _ => True
  | .destroy _ => True

/-- A program with such statements only. -/
def Safe [CommRing R] : List (SolverStmt R) → List (Option (Csr R)) → Prop
  | [], _ => True
  | op :: ops, vs => SafeStep vs op ∧ ∀ vs', step vs op = .ok vs' → Safe ops vs'

/-- A program. -/
noncomputable def run [CommRing R] (ops : List (SolverStmt R)) (vs : List (Option (Csr R))) : Res (List (Option (Csr R))) :=
  ops.foldlM step vs

end SolverVals
end Linalg
