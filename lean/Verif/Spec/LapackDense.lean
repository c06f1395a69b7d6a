import Verif.Spec.Eigen
import Verif.Spec.Dense
import Verif.Model.LapackDense
import Mathlib.LinearAlgebra.Matrix.Determinant.Basic

/-!
# What LAPACK is assumed to compute for the dense factorisations
-/

namespace Linalg
open Cpp

variable {R : Type}

/-- The entries of a dense matrix. -/
def Dense.mat [Zero R] (D : Dense R) (m n : Nat) : Matrix (Fin m) (Fin n) R := fun i j => D.entry i j

/-- `U`, `s` belong to a reduced singular value decomposition of `A`, largest value first. -/
def IsSvd [CommRing R] [LE R] {m n k : Nat} (A : Matrix (Fin m) (Fin n) R) (U : Matrix (Fin m) (Fin k) R) (s : List R) : Prop :=
  s.length = k ∧ (∀ x ∈ s, 0 ≤ x) ∧ s.Pairwise (fun x y => y ≤ x) ∧ U.transpose * U = 1 ∧
    ∃ V : Matrix (Fin n) (Fin k) R, V.transpose * V = 1 ∧ A = U * Matrix.diagonal (fun i : Fin k => s.getD i 0) * V.transpose

/-- Column `k` of `A` after the exchange of columns is column `σ k` of `A`, and this is `Q` times an upper triangular matrix. -/
def IsPivotedQr [CommRing R] {m n : Nat} (A Q : Matrix (Fin m) (Fin n) R) (σ : Equiv.Perm (Fin n)) : Prop :=
  Q.transpose * Q = 1 ∧ ∃ T : Matrix (Fin n) (Fin n) R, (∀ i j, j < i → T i j = 0) ∧ A.submatrix id σ = Q * T

/-- LAPACK returns arrays of the documented length and asks for enough workspace. -/
structure LapackDense.Sized (L : LapackDense R) : Prop where
  gesvdWork : ∀ m n : Nat, 1 ≤ m → 1 ≤ n → (max 1 (max (3 * min m n + max m n) (5 * min m n)) : Nat) ≤ L.gesvdWork m n
  gesvd : ∀ (m n : Nat) (a : List R), 1 ≤ m → 1 ≤ n → a.length = m * n →
    (L.gesvd m n a).1.length = m * n ∧ (L.gesvd m n a).2.1.length = min m n
  geqp3Work : ∀ m n : Nat, 1 ≤ m → 1 ≤ n → (3 * n + 1 : Nat) ≤ L.geqp3Work m n
  geqp3 : ∀ (m n : Nat) (a : List R) (p : List Int), 1 ≤ m → 1 ≤ n → a.length = m * n → p.length = n →
    (L.geqp3 m n a p).1.length = m * n ∧ (L.geqp3 m n a p).2.1.length = n ∧ (L.geqp3 m n a p).2.2.length = min m n
  orgqrWork : ∀ m n k : Nat, 1 ≤ n → n ≤ m → k ≤ n → (n : Int) ≤ L.orgqrWork m n k
  orgqr : ∀ (m n k : Nat) (a tau : List R), 1 ≤ n → n ≤ m → k ≤ n → a.length = m * n → tau.length = k →
    (L.orgqr m n k a tau).1.length = m * n ∧ (L.orgqr m n k a tau).2 = 0
  getrf : ∀ (n : Nat) (a : List R), 1 ≤ n → a.length = n * n → (L.getrf n n a).1.length = n * n ∧ (L.getrf n n a).2.length = n
  getriWork : ∀ n : Nat, 1 ≤ n → (n : Int) ≤ L.getriWork n
  getri : ∀ (n : Nat) (a : List R) (p : List Int), 1 ≤ n → a.length = n * n → p.length = n → (L.getri n a p).1.length = n * n

/-- LAPACK in exact arithmetic.  `dgesvd_`, when it reports success, leaves the first `min(m, n)` left singular vectors in the first
columns of the matrix.  `dgeqp3_`, given a `jpvt` of zeros, moves the columns it chooses, and `dorgqr_` forms the orthogonal factor.
`dgetri_` inverts what `dgetrf_` factored, or reports that it cannot. -/
structure LapackDense.Exact [CommRing R] [LE R] (L : LapackDense R) : Prop extends L.Sized where
  svd : ∀ (m n : Nat) (a : List R), 1 ≤ m → 1 ≤ n → a.length = m * n → (L.gesvd m n a).2.2 = 0 →
    IsSvd (matOf m n a) (matOf m (min m n) (L.gesvd m n a).1) (L.gesvd m n a).2.1
  qr : ∀ (m n : Nat) (a : List R), 1 ≤ n → n ≤ m → a.length = m * n →
    ∃ σ : Equiv.Perm (Fin n),
      (∀ k : Fin n, (L.geqp3 m n a (List.replicate n 0)).2.1.getD k 0 = (σ k : Nat) + 1) ∧
      IsPivotedQr (matOf m n a) (matOf m n (L.orgqr m n n (L.geqp3 m n a (List.replicate n 0)).1
        (L.geqp3 m n a (List.replicate n 0)).2.2).1) σ
  inverse : ∀ (n : Nat) (a : List R), 1 ≤ n → a.length = n * n →
    ((L.getri n (L.getrf n n a).1 (L.getrf n n a).2).2 = 0 ↔ IsUnit (matOf n n a).det) ∧
    ((L.getri n (L.getrf n n a).1 (L.getrf n n a).2).2 = 0 →
      matOf n n (L.getri n (L.getrf n n a).1 (L.getrf n n a).2).1 * matOf n n a = 1)

end Linalg
