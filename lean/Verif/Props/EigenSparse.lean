import Verif.Model.EigenSparse
import Verif.Props.Eigen
import Verif.Props.SparseDense

/-!
# C68: the eigensolver for sparse matrices
-/

namespace Linalg
open Cpp Eigen

variable {R : Type}

/-- The entries of a sparse matrix as a matrix. -/
def Csr.matrix [AddMonoid R] (A : Csr R) (n : Nat) : Matrix (Fin n) (Fin n) R := fun i j => A.coef i j

theorem matOf_is [Zero R] (D : Dense R) (n : Nat) (f : Int → Int → R) (h : D.Is n n f) :
    matOf n n D.data = (fun i j => f (i : Nat) (j : Nat) : Fin n → Fin n → R) := by
  funext i j
  have h1 := h.get_eq i j (by omega) (by omega) (by omega) (by omega)
  unfold Dense.get at h1
  have hr := h.rows_eq
  have hc := h.cols_eq
  rw [Dense.checkIdx_ok (by omega) (by omega) (by omega) (by omega), ok_bind, hr] at h1
  have h3 : ((i : Int) + (j : Int) * n) = ((i + j * n : Nat) : Int) := by push_cast; rfl
  rw [h3, rd_eq_ok, Int.toNat_natCast] at h1
  unfold matOf
  rw [List.getD_eq_getElem?_getD, h1.2, Option.getD_some]

/-- What `Solve` returns for a symmetric `n x n` matrix. -/
def SolvesEigen [CommRing R] [LinearOrder R] (n : Nat) (M : Matrix (Fin n) (Fin n) R) (r : Res (Eigen R × List R × Dense R)) : Prop :=
  ∃ S' w m V, r = .ok (S', w, ⟨n, (m : Nat), V⟩) ∧ 1 ≤ m ∧ m ≤ n ∧ V.length = n * m ∧ Spectrum M w ∧ EigenVectors M w (matOf n m V)

/-- **C68.**  `Solve` of a sparse matrix whose entries are symmetric and stored once each, in both forms: its eigenvalues in ascending order, and
orthonormal eigenvectors for the first of them, if LAPACK computes what it documents. -/
theorem C68_sparse [CommRing R] [LinearOrder R] (L : Lapack R) (hL : L.Exact) (S : Eigen R) (hS : Reach L S) (A : Csr R)
    (hA : A.WF) (hd : A.NoDup) (n : Nat) (hn : 1 ≤ n) (hr : A.rows = n) (hc : A.cols = n) (hsym : ∀ i < n, ∀ j < n, A.coef i j = A.coef j i)
    (relTol : R) (maxEvect : Int) (hmax : maxEvect ≤ n) (evals : List R) (evects : Dense R) :
    SolvesEigen n (A.matrix n) (S.solveSparse L A relTol maxEvect evals evects) ∧
      SolvesEigen n (A.matrix n) (S.solveSparseNew L A relTol maxEvect) := by
  obtain ⟨D, d1, d2⟩ := C06_toDense_partial A hA hd
  rw [hr, hc] at d2
  have hm : matOf n n D.data = A.matrix n := matOf_is D n A.coef d2
  have hs : (matOf n n D.data).IsSymm := by
    rw [hm]
    ext i j
    exact hsym _ j.isLt _ i.isLt
  have key := C68_eigenpairs L hL S hS D d2.wf n hn d2.rows_eq d2.cols_eq hs relTol maxEvect hmax
  rw [hm] at key
  refine ⟨?_, ?_⟩
  · unfold Eigen.solveSparse
    rw [d1, ok_bind]
    exact key evals evects
  · unfold Eigen.solveSparseNew Eigen.solveNew
    rw [d1, ok_bind]
    exact key [] Dense.empty

/-- A sparse matrix whose entries are symmetric: those of the third test of the eigensolver (tests/test_linalg.cpp:1359-1368). -/
example : let A : Csr Int := ⟨3, 3, [0, 2, 5, 7], [0, 1, 0, 1, 2, 1, 2], [1, -1, -1, 2, -1, -1, 1]⟩
    A.WF ∧ A.NoDup ∧ ∀ i < 3, ∀ j < 3, A.coef (i : Nat) (j : Nat) = A.coef j i := by
  have hw : (⟨3, 3, [0, 2, 5, 7], [0, 1, 0, 1, 2, 1, 2], [1, -1, -1, 2, -1, -1, 1]⟩ : Csr Int).WF := by decide
  exact ⟨hw, hw.noDup_iff.mpr (by decide), by decide +kernel⟩

end Linalg
