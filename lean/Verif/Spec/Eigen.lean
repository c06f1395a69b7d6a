import Verif.Model.Eigen
import Mathlib.LinearAlgebra.Matrix.Symmetric
import Mathlib.Data.Matrix.Diagonal

/-!
# What LAPACK is assumed to compute, and what an eigensolver should return
-/

namespace Linalg
open Cpp

variable {R : Type}

/-- The `n x m` matrix stored column by column in a list. -/
def matOf [Zero R] (n m : Nat) (a : List R) : Matrix (Fin n) (Fin m) R := fun i j => a.getD (i + j * n) 0

/-- The symmetric tridiagonal matrix with diagonal `d` and off-diagonal `e`. -/
def tridiag [Zero R] (n : Nat) (d e : List R) : Matrix (Fin n) (Fin n) R := fun i j =>
  if i = j then d.getD i 0 else if (i : Nat) + 1 = j then e.getD i 0 else if (j : Nat) + 1 = i then e.getD j 0 else 0

/-- `w` lists the eigenvalues of `T` in ascending order, with multiplicity: an orthogonal matrix diagonalises `T` to them. -/
def Spectrum [CommRing R] [LE R] {n : Nat} (T : Matrix (Fin n) (Fin n) R) (w : List R) : Prop :=
  w.length = n ∧ w.Pairwise (· ≤ ·) ∧
    ∃ U : Matrix (Fin n) (Fin n) R, U.transpose * U = 1 ∧ T * U = U * Matrix.diagonal (fun k : Fin n => w.getD k 0)

/-- The columns of `V` are orthonormal eigenvectors of `A`, for the first values of `w` in order. -/
def EigenVectors [CommRing R] {n m : Nat} (A : Matrix (Fin n) (Fin n) R) (w : List R) (V : Matrix (Fin n) (Fin m) R) : Prop :=
  V.transpose * V = 1 ∧ A * V = V * Matrix.diagonal (fun k : Fin m => w.getD k 0)

/-- LAPACK returns arrays of the documented length. -/
structure Lapack.Sized (L : Lapack R) : Prop where
  sytrd : ∀ (n : Nat) (a : List R), 1 ≤ n → a.length = n * n →
    (L.sytrd n a).1.length = n * n ∧ (L.sytrd n a).2.1.length = n ∧ (L.sytrd n a).2.2.1.length = n - 1 ∧
      (L.sytrd n a).2.2.2.length = n - 1
  sterf : ∀ (n : Nat) (d e : List R), 1 ≤ n → d.length = n → e.length = n - 1 → (L.sterf n d e).length = n
  stein : ∀ (n m : Nat) (d e w : List R) (ib is : List Int), 1 ≤ m → m ≤ n → d.length = n → e.length = n - 1 → w.length = n →
    ib.length = n → is.length = n → (L.stein n m d e w ib is).length = n * m
  ormtr : ∀ (n m : Nat) (a tau c : List R), 1 ≤ m → m ≤ n → a.length = n * n → tau.length = n - 1 → c.length = n * m →
    (L.ormtr n m a tau c).length = n * m

/-- LAPACK in exact arithmetic: `dsytrd_` reduces a symmetric matrix to tridiagonal form with the `Q` that `dormtr_` applies,
`dsterf_` returns the eigenvalues of a tridiagonal matrix in ascending order, `dstein_` orthonormal eigenvectors for the first
`m` of them (for a matrix declared to be one block). -/
structure Lapack.Exact [CommRing R] [LE R] (L : Lapack R) : Prop extends L.Sized where
  reduce : ∀ (n : Nat) (a : List R), 1 ≤ n → a.length = n * n → (matOf n n a).IsSymm →
    ∃ Q : Matrix (Fin n) (Fin n) R, Q.transpose * Q = 1 ∧
      matOf n n a = Q * tridiag n (L.sytrd n a).2.1 (L.sytrd n a).2.2.1 * Q.transpose ∧
      ∀ (m : Nat) (c : List R), 1 ≤ m → m ≤ n → c.length = n * m →
        matOf n m (L.ormtr n m (L.sytrd n a).1 (L.sytrd n a).2.2.2 c) = Q * matOf n m c
  values : ∀ (n : Nat) (d e : List R), 1 ≤ n → d.length = n → e.length = n - 1 → Spectrum (tridiag n d e) (L.sterf n d e)
  vectors : ∀ (n m : Nat) (d e w : List R) (ib is : List Int), 1 ≤ m → m ≤ n → d.length = n → e.length = n - 1 →
    Spectrum (tridiag n d e) w → ib = List.replicate n 1 → is.length = n → is.head? = some (n : Int) →
    EigenVectors (tridiag n d e) w (matOf n m (L.stein n m d e w ib is))

end Linalg
