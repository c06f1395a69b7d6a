import Verif.Spec.LapackDense
import Verif.Proof.Dense
import Verif.Props.Eigen
import Mathlib.Analysis.InnerProductSpace.GramSchmidtOrtho
import Mathlib.LinearAlgebra.Matrix.NonsingularInverse
import Mathlib.LinearAlgebra.Matrix.Trace

/-!
# The dense factorisations: properties C79, C80, C81
-/

namespace Linalg
open Cpp
open Eigen (need_ok overwrite_all)

variable {α R : Type}

namespace Dense

theorem mat_eq [Zero R] {D : Dense R} (hD : D.WF) {m n k : Nat} (hm : D.rows = m) (hn : D.cols = n) (hk : k ≤ n) :
    D.mat m k = matOf m k D.data := by
  funext i j
  unfold mat matOf entry get
  have hsz := hD.size
  rw [hm, hn] at hsz
  have hi := i.isLt
  have hj := j.isLt
  have hlt : (i : Nat) + (j : Nat) * m < D.data.length := by
    have := idx_lt hi (show (j : Nat) < n by omega)
    have e : D.data.length = m * n := by exact_mod_cast hsz
    omega
  rw [checkIdx_ok (by omega) (by omega) (by omega) (by omega), ok_bind]
  have e : ((i : Nat) : Int) + ((j : Nat) : Int) * D.rows = (((i : Nat) + (j : Nat) * m : Nat) : Int) := by
    rw [hm]; push_cast; rfl
  rw [e, rd_nat hlt, List.getD_eq_getElem?_getD, List.getElem?_eq_getElem hlt]
  rfl

theorem need_fail {len k : Int} (h : ¬ k ≤ len) : need len k = .error .outOfBounds := if_neg h

theorem data_length {D : Dense R} (hD : D.WF) {m n : Nat} (hm : D.rows = m) (hn : D.cols = n) : D.data.length = m * n := by
  have hsz := hD.size
  rw [hm, hn] at hsz
  exact_mod_cast hsz

/-! ## Inverse -/

theorem invert_eq [Zero R] (L : LapackDense R) (hL : L.Sized) {D : Dense R} (hD : D.WF) {n : Nat} (h1 : 1 ≤ n) (hm : D.rows = n)
    (hn : D.cols = n) :
    D.invert L = if (L.getri n (L.getrf n n D.data).1 (L.getrf n n D.data).2).2 = 0
      then .ok ⟨n, n, (L.getri n (L.getrf n n D.data).1 (L.getrf n n D.data).2).1⟩ else .error .assertFail := by
  have hsz := data_length hD hm hn
  obtain ⟨f1, f2⟩ := hL.getrf n D.data h1 hsz
  have f3 := hL.getri n _ _ h1 f1 f2
  have hw := hL.getriWork n h1
  obtain ⟨r, c, d⟩ := D
  simp only at hm hn hsz f1 f2 f3 ⊢
  subst hm hn
  generalize hF : L.getrf n n d = F at *
  generalize hG : L.getri n F.1 F.2 = G at *
  have e1 : mkVec (Min.min (n : Int) n) (0 : Int) = .ok (List.replicate n 0) := by
    rw [min_self]; exact mkVec_nat n 0
  have e2 : callGetrf L n n d (List.replicate n 0) = .ok F := by
    unfold callGetrf
    rw [need_ok (by rw [hsz]; push_cast; rfl), ok_bind, need_ok (by simp), ok_bind]
    have e : ((n : Int) * n).toNat = d.length := by rw [hsz]; norm_cast
    simp only [e, List.take_length, Int.toNat_natCast]
    rw [hF, overwrite_all (by omega), overwrite_all (by simp; omega)]
  have e3 : mkVec (L.getriWork n) (0 : R) = .ok (List.replicate (L.getriWork n).toNat 0) := mkVec_int (by omega) 0
  have e4 : callGetri L n F.1 F.2 (List.replicate (L.getriWork n).toNat 0) (L.getriWork n) = .ok G := by
    unfold callGetri
    rw [cverify_true (by omega), ok_bind, need_ok (by rw [f1]; push_cast; rfl), ok_bind, need_ok (by omega), ok_bind,
      need_ok (by simp), ok_bind]
    have e : ((n : Int) * n).toNat = F.1.length := by rw [f1]; norm_cast
    simp only [e, List.take_length, Int.toNat_natCast]
    rw [List.take_of_length_le (by omega), hG, overwrite_all (by omega)]
  unfold invert
  simp only
  rw [cassert_true trivial, ok_bind, if_neg (by omega), e1, ok_bind, e2, ok_bind, e3, ok_bind, e4, ok_bind]
  by_cases h : G.2 = 0
  · rw [cassert_true h, if_pos h]; rfl
  · rw [cassert_false h, if_neg h]; rfl

end Dense

/-- **C79.**  If LAPACK computes what it documents, `Invert` of a square matrix succeeds exactly when the matrix has an inverse,
and then overwrites the matrix by it; a singular matrix trips the assertion. -/
theorem C79_invert [CommRing R] [LE R] (L : LapackDense R) (hL : L.Exact) (D : Dense R) (hD : D.WF) (n : Nat) (hm : D.rows = n)
    (hn : D.cols = n) :
    (IsUnit (D.mat n n).det → ∃ E, D.invert L = .ok E ∧ E.WF ∧ E.rows = n ∧ E.cols = n ∧
      E.mat n n * D.mat n n = 1 ∧ D.mat n n * E.mat n n = 1) ∧
    (¬ IsUnit (D.mat n n).det → D.invert L = .error .assertFail) := by
  rcases Nat.eq_zero_or_pos n with rfl | h1
  · have e : D.invert L = .ok D := by
      unfold Dense.invert
      simp only
      rw [cassert_true (by rw [hm, hn]), ok_bind, if_pos (by left; rw [hm]; rfl)]
    refine ⟨fun _ => ⟨D, e, hD, hm, hn, Subsingleton.elim _ _, Subsingleton.elim _ _⟩, fun h => absurd ?_ h⟩
    rw [Matrix.det_isEmpty]
    exact isUnit_one
  · have hsz := Dense.data_length hD hm hn
    obtain ⟨f1, f2⟩ := hL.getrf n D.data h1 hsz
    have f3 := hL.getri n _ _ h1 f1 f2
    have hx := hL.inverse n D.data h1 hsz
    rw [Dense.invert_eq L hL.toSized hD h1 hm hn, Dense.mat_eq hD hm hn le_rfl]
    refine ⟨fun h => ?_, fun h => if_neg (fun h' => h (hx.1.mp h'))⟩
    have h0 := hx.1.mpr h
    have hE : (Dense.mk (n : Int) n (L.getri n (L.getrf n n D.data).1 (L.getrf n n D.data).2).1).WF :=
      ⟨by simp, by simp, by show ((List.length _ : Nat) : Int) = _; rw [f3]; push_cast; rfl⟩
    refine ⟨_, if_pos h0, hE, rfl, rfl, ?_⟩
    rw [Dense.mat_eq hE rfl rfl le_rfl]
    have := hx.2 h0
    exact ⟨this, mul_eq_one_comm.mp this⟩

/-- **C79.**  A matrix that is not square is rejected. -/
theorem C79_rejects [Zero R] (L : LapackDense R) (D : Dense R) (h : D.rows ≠ D.cols) : D.invert L = .error .assertFail := by
  unfold Dense.invert
  simp only
  rw [cassert_false h]
  rfl

/-- **C79.**  The copying form returns the same inverse and leaves the matrix alone, whatever the output held. -/
theorem C79_copy [Zero R] (L : LapackDense R) (D E inv : Dense R) (h : D.invert L = .ok E) : D.invertInto L inv = .ok (E, D) := by
  unfold Dense.invertInto
  rw [h]
  rfl

/-! ## Singular values -/

namespace Dense

theorem svd_eq [Zero R] (L : LapackDense R) (hL : L.Sized) {D : Dense R} (hD : D.WF) {m n : Nat} (h1 : 1 ≤ m) (h2 : 1 ≤ n)
    (hm : D.rows = m) (hn : D.cols = n) :
    D.svd L = if (L.gesvd m n D.data).2.2 = 0
      then .ok ((L.gesvd m n D.data).2.1, ⟨m, n, (L.gesvd m n D.data).1⟩) else .error .assertFail := by
  have hsz := data_length hD hm hn
  obtain ⟨f1, f2⟩ := hL.gesvd m n D.data h1 h2 hsz
  have hw := hL.gesvdWork m n h1 h2
  obtain ⟨r, c, d⟩ := D
  simp only at hm hn hsz f1 f2 ⊢
  subst hm hn
  generalize hF : L.gesvd m n d = F at *
  have e0 : Min.min (m : Int) n = ((Min.min m n : Nat) : Int) := by omega
  have e1 : mkVec (Min.min (m : Int) n) (0 : R) = .ok (List.replicate (Min.min m n) 0) := by
    rw [e0]; exact mkVec_nat _ 0
  have e3 : mkVec (L.gesvdWork m n) (0 : R) = .ok (List.replicate (L.gesvdWork m n).toNat 0) := mkVec_int (by omega) 0
  have e4 : callGesvd L m n d (List.replicate (Min.min m n) 0) (List.replicate (L.gesvdWork m n).toNat 0) (L.gesvdWork m n)
      = .ok F := by
    unfold callGesvd
    rw [cverify_true (by omega), ok_bind, need_ok (by rw [hsz]; push_cast; rfl), ok_bind, need_ok (by simp), ok_bind,
      need_ok (by simp), ok_bind]
    have e : ((m : Int) * n).toNat = d.length := by rw [hsz]; norm_cast
    simp only [e, List.take_length, Int.toNat_natCast]
    rw [hF, overwrite_all (by omega), overwrite_all (by simp; omega)]
  unfold svd
  simp only
  rw [e1, ok_bind, if_neg (by omega), e3, ok_bind, e4, ok_bind]
  by_cases h : F.2.2 = 0
  · rw [cassert_true h, if_pos h]; rfl
  · rw [cassert_false h, if_neg h]; rfl

end Dense

/-- **C80.**  If LAPACK computes what it documents, `SVD` either trips its assertion (exactly when LAPACK reports that the iteration
did not converge) or returns the `min(m, n)` singular values, largest first, and leaves orthonormal left singular vectors in the
first `min(m, n)` columns of the matrix, whose shape does not change. -/
theorem C80_svd [CommRing R] [LE R] (L : LapackDense R) (hL : L.Exact) (D : Dense R) (hD : D.WF) (m n : Nat) (hm : D.rows = m)
    (hn : D.cols = n) :
    (1 ≤ m → 1 ≤ n → (L.gesvd m n D.data).2.2 ≠ 0 → D.svd L = .error .assertFail) ∧
    ((1 ≤ m → 1 ≤ n → (L.gesvd m n D.data).2.2 = 0) → ∃ s E, D.svd L = .ok (s, E) ∧ E.WF ∧ E.rows = m ∧ E.cols = n ∧
      IsSvd (D.mat m n) (E.mat m (min m n)) s) := by
  refine ⟨fun h1 h2 h => by rw [Dense.svd_eq L hL.toSized hD h1 h2 hm hn, if_neg h], fun h => ?_⟩
  by_cases hz : m = 0 ∨ n = 0
  · have hk : min m n = 0 := by omega
    refine ⟨[], D, ?_, hD, hm, hn, by rw [hk]; rfl, by simp, by simp, ?_, 0, ?_, ?_⟩
    · unfold Dense.svd
      simp only
      have e : mkVec (min D.rows D.cols) (0 : R) = .ok [] := by
        have : min D.rows D.cols = ((0 : Nat) : Int) := by omega
        rw [this, mkVec_nat]; rfl
      rw [e, ok_bind, if_pos (by omega)]
    · have : IsEmpty (Fin (min m n)) := by rw [hk]; infer_instance
      exact Subsingleton.elim _ _
    · have : IsEmpty (Fin (min m n)) := by rw [hk]; infer_instance
      exact Subsingleton.elim _ _
    · ext i j
      have hi := i.isLt
      have hj := j.isLt
      omega
  · have h1 : 1 ≤ m := by omega
    have h2 : 1 ≤ n := by omega
    have h0 := h h1 h2
    have hsz := Dense.data_length hD hm hn
    obtain ⟨f1, f2⟩ := hL.gesvd m n D.data h1 h2 hsz
    have hE : (Dense.mk (m : Int) n (L.gesvd m n D.data).1).WF :=
      ⟨by simp, by simp, by show ((List.length _ : Nat) : Int) = _; rw [f1]; push_cast; rfl⟩
    refine ⟨_, _, by rw [Dense.svd_eq L hL.toSized hD h1 h2 hm hn, if_pos h0], hE, rfl, rfl, ?_⟩
    rw [Dense.mat_eq hE rfl rfl (Nat.min_le_right _ _), Dense.mat_eq hD hm hn le_rfl]
    exact hL.svd m n D.data h1 h2 hsz h0

/-- **C80.**  What the decomposition means: the vectors are eigenvectors of `A Aᵀ` for the squares of the values, and the squares
of the values add up to the sum of the squares of all entries of `A`. -/
theorem C80_values [CommRing R] [LE R] {m n k : Nat} (A : Matrix (Fin m) (Fin n) R) (U : Matrix (Fin m) (Fin k) R) (s : List R)
    (h : IsSvd A U s) :
    A * A.transpose * U = U * Matrix.diagonal (fun i : Fin k => s.getD i 0 ^ 2) ∧
    ∑ i, ∑ j, A i j ^ 2 = (s.map (· ^ 2)).sum := by
  obtain ⟨hl, _, _, u1, V, v1, rfl⟩ := h
  have hd : ∀ d : Fin k → R, (Matrix.diagonal d).transpose = Matrix.diagonal d := fun d => Matrix.diagonal_transpose d
  constructor
  · rw [Matrix.transpose_mul, Matrix.transpose_mul, Matrix.transpose_transpose, hd]
    calc _ = U * Matrix.diagonal (fun i : Fin k => s.getD i 0) * (V.transpose * V) * Matrix.diagonal (fun i : Fin k => s.getD i 0)
          * (U.transpose * U) := by simp only [Matrix.mul_assoc]
      _ = _ := by
        rw [u1, v1, Matrix.mul_one, Matrix.mul_one, Matrix.mul_assoc, Matrix.diagonal_mul_diagonal]
        simp only [pow_two]
  · have e : ∀ B : Matrix (Fin m) (Fin n) R, ∑ i, ∑ j, B i j ^ 2 = Matrix.trace (B * B.transpose) := by
      intro B
      unfold Matrix.trace
      apply Finset.sum_congr rfl
      intro i _
      rw [Matrix.diag_apply, Matrix.mul_apply]
      apply Finset.sum_congr rfl
      intro j _
      rw [Matrix.transpose_apply, pow_two]
    rw [e, Matrix.transpose_mul, Matrix.transpose_mul, Matrix.transpose_transpose, hd]
    have e2 : U * Matrix.diagonal (fun i : Fin k => s.getD i 0) * V.transpose
        * (V * (Matrix.diagonal (fun i : Fin k => s.getD i 0) * U.transpose))
        = U * (Matrix.diagonal (fun i : Fin k => s.getD i 0 ^ 2) * U.transpose) := by
      calc _ = U * Matrix.diagonal (fun i : Fin k => s.getD i 0) * (V.transpose * V)
            * (Matrix.diagonal (fun i : Fin k => s.getD i 0) * U.transpose) := by simp only [Matrix.mul_assoc]
        _ = _ := by
          rw [v1, Matrix.mul_one, Matrix.mul_assoc, ← Matrix.mul_assoc (Matrix.diagonal _), Matrix.diagonal_mul_diagonal]
          simp only [pow_two]
    rw [e2, Matrix.trace_mul_comm, Matrix.mul_assoc, u1, Matrix.mul_one, Matrix.trace_diagonal]
    subst hl
    rw [← List.sum_ofFn]
    congr 1
    apply List.ext_getElem (by simp)
    intro i h1 h2
    simp at h1 ⊢

/-- **C80.**  The copying form returns the same and leaves the matrix alone. -/
theorem C80_copy [Zero R] (L : LapackDense R) (D U E : Dense R) (s : List R) (h : D.svd L = .ok (s, E)) :
    D.svdInto L U = .ok (s, E, D) := by
  unfold Dense.svdInto
  rw [h]
  rfl

/-! ## QR -/

namespace Dense

theorem qr_eq [Zero R] (L : LapackDense R) (hL : L.Sized) {D : Dense R} (hD : D.WF) {m n : Nat} (h1 : 1 ≤ n) (h2 : n ≤ m)
    (hm : D.rows = m) (hn : D.cols = n) :
    D.qr L = .ok ⟨m, n, (L.orgqr m n n (L.geqp3 m n D.data (List.replicate n 0)).1
      (L.geqp3 m n D.data (List.replicate n 0)).2.2).1⟩ := by
  have hsz := data_length hD hm hn
  obtain ⟨f1, f2, f3⟩ := hL.geqp3 m n D.data (List.replicate n 0) (by omega) h1 hsz (by simp)
  have hmin : Min.min m n = n := by omega
  rw [hmin] at f3
  obtain ⟨g1, g2⟩ := hL.orgqr m n n _ _ h1 h2 le_rfl f1 f3
  have hw := hL.geqp3Work m n (by omega) h1
  have hw' := hL.orgqrWork m n n h1 h2 le_rfl
  obtain ⟨r, c, d⟩ := D
  simp only at hm hn hsz f1 f2 f3 g1 g2 ⊢
  subst hm hn
  generalize hF : L.geqp3 m n d (List.replicate n 0) = F at *
  generalize hG : L.orgqr m n n F.1 F.2.2 = G at *
  have e0 : Min.min (m : Int) n = (n : Int) := by omega
  have e1 : mkVec (Min.min (m : Int) n) (0 : Int) = .ok (List.replicate n 0) := by
    rw [e0]; exact mkVec_nat _ 0
  have e2 : mkVec (Min.min (m : Int) n) (0 : R) = .ok (List.replicate n 0) := by
    rw [e0]; exact mkVec_nat _ 0
  have e3 : mkVec (L.geqp3Work m n) (0 : R) = .ok (List.replicate (L.geqp3Work m n).toNat 0) := mkVec_int (by omega) 0
  have e4 : callGeqp3 L m n d (List.replicate n 0) (List.replicate n 0) (List.replicate (L.geqp3Work m n).toNat 0)
      (L.geqp3Work m n) = .ok F := by
    unfold callGeqp3
    rw [cverify_true (by omega), ok_bind, need_ok (by rw [hsz]; push_cast; rfl), ok_bind, need_ok (by simp), ok_bind,
      need_ok (by simp), ok_bind, need_ok (by simp), ok_bind]
    have e : ((m : Int) * n).toNat = d.length := by rw [hsz]; norm_cast
    have e' : (List.replicate n (0 : Int)).take ((n : Int)).toNat = List.replicate n 0 := by simp
    simp only [e, List.take_length, Int.toNat_natCast]
    rw [Int.toNat_natCast] at e'
    rw [e', hF, overwrite_all (by omega), overwrite_all (by simp; omega), overwrite_all (by simp; omega)]
  have e5 : callOrgqr L m n n F.1 F.2.2 (resize (List.replicate (L.geqp3Work m n).toNat 0) (L.orgqrWork m n n).toNat 0)
      (L.orgqrWork m n n) = .ok G := by
    unfold callOrgqr
    rw [cverify_true (by omega), ok_bind, cverify_true (by omega), ok_bind, need_ok (by rw [f1]; push_cast; rfl), ok_bind,
      need_ok (by omega), ok_bind, need_ok (by rw [length_resize]; omega), ok_bind]
    have e : ((m : Int) * n).toNat = F.1.length := by rw [f1]; norm_cast
    simp only [e, List.take_length, Int.toNat_natCast]
    rw [List.take_of_length_le (by omega), hG, overwrite_all (by omega)]
  unfold qr
  simp only
  rw [if_neg (by omega), e1, ok_bind, e2, ok_bind, e3, ok_bind, e4, ok_bind, e0, e5, ok_bind, cassert_true g2]
  rfl

end Dense

/-- **C81**, for matrices with at least as many rows as columns.  If LAPACK computes what it documents, `QR` leaves a matrix of the
same shape with orthonormal columns, and projecting the original columns onto them changes nothing: they span the original columns.
What is missing: matrices with more columns than rows, see `C81_wide_false`. -/
theorem C81_qr_partial [CommRing R] [LE R] (L : LapackDense R) (hL : L.Exact) (D : Dense R) (hD : D.WF) (m n : Nat) (hm : D.rows = m)
    (hn : D.cols = n) (hle : n ≤ m) :
    ∃ Q, D.qr L = .ok Q ∧ Q.WF ∧ Q.rows = m ∧ Q.cols = n ∧ (Q.mat m n).transpose * Q.mat m n = 1 ∧
      Q.mat m n * ((Q.mat m n).transpose * D.mat m n) = D.mat m n := by
  rcases Nat.eq_zero_or_pos n with rfl | h1
  · refine ⟨D, ?_, hD, hm, hn, Subsingleton.elim _ _, ?_⟩
    · unfold Dense.qr
      simp only
      rw [if_pos (by right; rw [hn]; rfl)]
    · ext i j
      exact j.elim0
  · have hsz := Dense.data_length hD hm hn
    obtain ⟨f1, f2, f3⟩ := hL.geqp3 m n D.data (List.replicate n 0) (by omega) h1 hsz (by simp)
    rw [Nat.min_eq_right hle] at f3
    obtain ⟨g1, g2⟩ := hL.orgqr m n n _ _ h1 hle le_rfl f1 f3
    obtain ⟨σ, _, q1, T, _, q2⟩ := hL.qr m n D.data h1 hle hsz
    have e := Dense.qr_eq L hL.toSized hD h1 hle hm hn
    generalize (L.orgqr m n n (L.geqp3 m n D.data (List.replicate n 0)).1 (L.geqp3 m n D.data (List.replicate n 0)).2.2).1 = q at *
    have hE : (Dense.mk (m : Int) n q).WF :=
      ⟨by simp, by simp, by show ((List.length _ : Nat) : Int) = _; rw [g1]; push_cast; rfl⟩
    refine ⟨_, e, hE, rfl, rfl, ?_⟩
    rw [Dense.mat_eq hE rfl rfl le_rfl, Dense.mat_eq hD hm hn le_rfl]
    refine ⟨q1, ?_⟩
    have h3 : matOf m n D.data = (matOf m n q * T).submatrix id σ.symm := by
      rw [← q2, Matrix.submatrix_submatrix]
      simp
    have h4 : (matOf m n q * T).submatrix id σ.symm = matOf m n q * T.submatrix id σ.symm := by
      rw [Matrix.submatrix_mul _ _ id id _ Function.bijective_id, Matrix.submatrix_id_id]
    rw [h3, h4, ← Matrix.mul_assoc (matOf m n q).transpose, q1, Matrix.one_mul]

/-- **C81** fails for every matrix with more columns than rows (and at least one row): the array of pivots has one element per row,
but `dgeqp3_` uses one per column. -/
theorem C81_wide_false [Zero R] (L : LapackDense R) (hL : L.Sized) (D : Dense R) (hD : D.WF) (h1 : 1 ≤ D.rows)
    (h2 : D.rows < D.cols) : D.qr L = .error .outOfBounds := by
  obtain ⟨m, hm⟩ : ∃ m : Nat, D.rows = m := ⟨D.rows.toNat, by omega⟩
  obtain ⟨n, hn⟩ : ∃ n : Nat, D.cols = n := ⟨D.cols.toNat, by omega⟩
  have hw := hL.geqp3Work m n (by omega) (by omega)
  have hsz := Dense.data_length hD hm hn
  obtain ⟨r, c, d⟩ := D
  simp only at hm hn hsz h1 h2 ⊢
  subst hm hn
  have e0 : Min.min (m : Int) n = (m : Int) := by omega
  have e1 : mkVec (Min.min (m : Int) n) (0 : Int) = .ok (List.replicate m 0) := by
    rw [e0]; exact mkVec_nat _ 0
  have e2 : mkVec (Min.min (m : Int) n) (0 : R) = .ok (List.replicate m 0) := by
    rw [e0]; exact mkVec_nat _ 0
  have e3 : mkVec (L.geqp3Work m n) (0 : R) = .ok (List.replicate (L.geqp3Work m n).toNat 0) := mkVec_int (by omega) 0
  unfold Dense.qr
  simp only
  rw [if_neg (by omega), e1, ok_bind, e2, ok_bind, e3, ok_bind]
  unfold Dense.callGeqp3
  rw [cverify_true (by omega), ok_bind, need_ok (by rw [hsz]; push_cast; rfl), ok_bind, Dense.need_fail (by simp; omega)]
  rfl

/-- **C81.**  The copying form returns the same and leaves the matrix alone. -/
theorem C81_copy [Zero R] (L : LapackDense R) (D Q E : Dense R) (h : D.qr L = .ok E) : D.qrInto L Q = .ok (E, D) := by
  unfold Dense.qrInto
  rw [h]
  rfl

/-! The assumption on LAPACK can be met over the reals. -/

namespace LapackDense

open scoped InnerProductSpace

theorem inner_cols {m : Nat} (x y : Fin m → ℝ) :
    ⟪(WithLp.toLp 2 x : EuclideanSpace ℝ (Fin m)), WithLp.toLp 2 y⟫_ℝ = ∑ i, x i * y i := by
  rw [EuclideanSpace.inner_toLp_toLp]
  unfold dotProduct
  apply Finset.sum_congr rfl
  intro i _
  rw [mul_comm]
  rfl

theorem inner_euclid {m : Nat} (x y : EuclideanSpace ℝ (Fin m)) : ⟪x, y⟫_ℝ = ∑ i, x i * y i :=
  inner_cols (fun i => x i) (fun i => y i)

/-- The first columns of an orthonormal basis. -/
theorem basis_cols {m n : Nat} (h : n ≤ m) (b : OrthonormalBasis (Fin m) ℝ (EuclideanSpace ℝ (Fin m))) :
    (Matrix.of (fun (i : Fin m) (j : Fin n) => b (Fin.castLE h j) i)).transpose
      * Matrix.of (fun (i : Fin m) (j : Fin n) => b (Fin.castLE h j) i) = 1 := by
  ext i j
  rw [Matrix.mul_apply]
  have e := orthonormal_iff_ite.mp b.orthonormal (Fin.castLE h i) (Fin.castLE h j)
  rw [inner_euclid] at e
  rw [Matrix.one_apply]
  simp only [Matrix.transpose_apply, Matrix.of_apply]
  rw [e]
  simp only [(Fin.castLE_injective h).eq_iff]

/-- Orthonormal columns can be extended by further ones. -/
theorem exists_extension {m n : Nat} (h : n ≤ m) (W : Matrix (Fin m) (Fin n) ℝ) (P : Fin n → Prop)
    (hW : ∀ i j, P i → P j → ∑ r, W r i * W r j = if i = j then 1 else 0) :
    ∃ Q : Matrix (Fin m) (Fin n) ℝ, Q.transpose * Q = 1 ∧ ∀ i j, P j → Q i j = W i j := by
  let v : Fin m → EuclideanSpace ℝ (Fin m) := fun k =>
    if hk : (k : Nat) < n then WithLp.toLp 2 (fun r => W r ⟨k, hk⟩) else 0
  let s : Set (Fin m) := {k | ∃ hk : (k : Nat) < n, P ⟨k, hk⟩}
  have hv : Orthonormal ℝ (s.domRestrict v) := by
    rw [orthonormal_iff_ite]
    rintro ⟨a, ha, pa⟩ ⟨b, hb, pb⟩
    show ⟪v a, v b⟫_ℝ = _
    simp only [v, dif_pos ha, dif_pos hb]
    rw [inner_cols, hW _ _ pa pb]
    simp only [Subtype.mk.injEq, Fin.ext_iff]
  obtain ⟨b, hb⟩ := hv.exists_orthonormalBasis_extension_of_card_eq (by simp)
  refine ⟨_, basis_cols h b, ?_⟩
  intro i j hj
  have : Fin.castLE h j ∈ s := ⟨j.isLt, hj⟩
  rw [Matrix.of_apply, hb _ this]
  have hlt : ((Fin.castLE h j : Fin m) : Nat) < n := j.isLt
  simp only [v, dif_pos hlt]
  rfl

/-- Every real matrix with at least as many rows as columns is orthonormal columns times an upper triangular matrix. -/
theorem exists_qr {m n : Nat} (h : n ≤ m) (A : Matrix (Fin m) (Fin n) ℝ) : ∃ Q, IsPivotedQr A Q (Equiv.refl _) := by
  let f : Fin m → EuclideanSpace ℝ (Fin m) := fun k =>
    if hk : (k : Nat) < n then WithLp.toLp 2 (fun r => A r ⟨k, hk⟩) else 0
  have hc : Module.finrank ℝ (EuclideanSpace ℝ (Fin m)) = Fintype.card (Fin m) := by simp
  let b := InnerProductSpace.gramSchmidtOrthonormalBasis hc f
  refine ⟨_, basis_cols h b, Matrix.of (fun i j => ⟪b (Fin.castLE h i), f (Fin.castLE h j)⟫_ℝ), ?_, ?_⟩
  · intro i j hij
    exact InnerProductSpace.gramSchmidtOrthonormalBasis_inv_triangular hc f (by exact hij)
  · ext i j
    have e := congrArg (fun x : EuclideanSpace ℝ (Fin m) => x i) (b.sum_repr' (f (Fin.castLE h j)))
    have hlt : ((Fin.castLE h j : Fin m) : Nat) < n := j.isLt
    have hf : f (Fin.castLE h j) i = A i j := by
      simp only [f, dif_pos hlt]
      rfl
    simp only [hf] at e
    rw [Matrix.submatrix_apply, Matrix.mul_apply]
    show A i j = _
    rw [← e]
    simp only [Matrix.of_apply]
    have e2 : (∑ k, ⟪b k, f (Fin.castLE h j)⟫_ℝ • b k : EuclideanSpace ℝ (Fin m)) i
        = ∑ k, ⟪b k, f (Fin.castLE h j)⟫_ℝ * b k i := by
      simp
    rw [e2]
    symm
    rw [← Finset.sum_image (f := fun k => b k i * ⟪b k, f (Fin.castLE h j)⟫_ℝ) (fun a _ c _ hac => Fin.castLE_injective h hac)]
    apply Finset.sum_subset_zero_on_sdiff (Finset.subset_univ _)
    · intro k hk
      rw [Finset.mem_sdiff] at hk
      have hkn : ¬ (k : Nat) < n := fun hlt => hk.2 (Finset.mem_image.mpr ⟨⟨k, hlt⟩, Finset.mem_univ _, Fin.ext rfl⟩)
      have h0 : ⟪b k, f (Fin.castLE h j)⟫_ℝ = 0 :=
        InnerProductSpace.gramSchmidtOrthonormalBasis_inv_triangular hc f
          (show (Fin.castLE h j : Fin m) < k by rw [Fin.lt_def]; have := j.isLt; simp only [Fin.val_castLE]; omega)
      rw [h0, zero_mul]
    · intro k _
      ring

/-- Singular value decomposition of a matrix with at least as many rows as columns. -/
theorem exists_svd_tall {m n : Nat} (h : n ≤ m) (A : Matrix (Fin m) (Fin n) ℝ) :
    ∃ (s : List ℝ) (U : Matrix (Fin m) (Fin n) ℝ) (V : Matrix (Fin n) (Fin n) ℝ), s.length = n ∧ (∀ x ∈ s, 0 ≤ x) ∧
      s.Pairwise (fun x y => y ≤ x) ∧ U.transpose * U = 1 ∧ V.transpose * V = 1 ∧
      A = U * Matrix.diagonal (fun i : Fin n => s.getD i 0) * V.transpose := by
  obtain ⟨w, w1, w2, X, x1, x2⟩ := Eigen.spectral (A.transpose * A) (by
    show (A.transpose * A).transpose = _
    rw [Matrix.transpose_mul, Matrix.transpose_transpose])
  let d : Fin n → ℝ := fun i => w.getD (Fin.rev i) 0
  let V : Matrix (Fin n) (Fin n) ℝ := X.submatrix id Fin.rev
  have v1 : V.transpose * V = 1 := by
    show (X.submatrix id Fin.rev).transpose * X.submatrix id Fin.rev = 1
    rw [Matrix.transpose_submatrix, ← Matrix.submatrix_mul _ _ _ id _ Function.bijective_id, x1]
    exact Matrix.submatrix_one _ Fin.rev_injective
  have v2 : A.transpose * A * V = V * Matrix.diagonal d := by
    have e : A.transpose * A * V = (A.transpose * A * X).submatrix id Fin.rev := by
      rw [Matrix.submatrix_mul _ _ id id _ Function.bijective_id, Matrix.submatrix_id_id]
    rw [e, x2]
    ext i k
    rw [Matrix.submatrix_apply, Matrix.mul_diagonal, Matrix.mul_diagonal]
    rfl
  have hdot : ∀ i j, ∑ r, (A * V) r i * (A * V) r j = if i = j then d i else 0 := by
    have e : (A * V).transpose * (A * V) = Matrix.diagonal d := by
      rw [Matrix.transpose_mul, Matrix.mul_assoc, ← Matrix.mul_assoc A.transpose, v2, ← Matrix.mul_assoc, v1, Matrix.one_mul]
    intro i j
    have := congrFun (congrFun e i) j
    rw [Matrix.mul_apply, Matrix.diagonal_apply] at this
    exact this
  have hd : ∀ i, 0 ≤ d i := by
    intro i
    have := hdot i i
    rw [if_pos rfl] at this
    rw [← this]
    exact Finset.sum_nonneg (fun r _ => mul_self_nonneg _)
  obtain ⟨U, u1, u2⟩ := exists_extension h (fun r i => (A * V) r i / Real.sqrt (d i)) (fun i => d i ≠ 0) (by
    intro i j hi hj
    have e : ∑ r, (A * V) r i / Real.sqrt (d i) * ((A * V) r j / Real.sqrt (d j))
        = (∑ r, (A * V) r i * (A * V) r j) / (Real.sqrt (d i) * Real.sqrt (d j)) := by
      rw [Finset.sum_div]
      apply Finset.sum_congr rfl
      intro r _
      rw [div_mul_div_comm]
    rw [e, hdot]
    by_cases hij : i = j
    · subst hij
      rw [if_pos rfl, if_pos rfl, Real.mul_self_sqrt (hd i), div_self hi]
    · rw [if_neg hij, if_neg hij, zero_div])
  refine ⟨List.ofFn (fun i => Real.sqrt (d i)), U, V, by simp, ?_, ?_, u1, v1, ?_⟩
  · intro x hx
    obtain ⟨i, rfl⟩ := List.mem_ofFn.mp hx
    exact Real.sqrt_nonneg _
  · rw [List.pairwise_ofFn]
    intro i j hij
    apply Real.sqrt_le_sqrt
    show w.getD (Fin.rev j) 0 ≤ w.getD (Fin.rev i) 0
    have hi := (Fin.rev i).isLt
    have hj := (Fin.rev j).isLt
    rw [List.getD_eq_getElem?_getD, List.getD_eq_getElem?_getD, List.getElem?_eq_getElem (by omega),
      List.getElem?_eq_getElem (by omega)]
    exact List.pairwise_iff_getElem.mp w2 _ _ _ _ (by rw [Fin.val_rev, Fin.val_rev]; omega)
  · have e : (fun i : Fin n => (List.ofFn (fun i => Real.sqrt (d i))).getD i 0) = fun i => Real.sqrt (d i) := by
      funext i
      simp [List.getD_eq_getElem?_getD]
    rw [e]
    have key : A * V = U * Matrix.diagonal (fun i => Real.sqrt (d i)) := by
      ext r i
      rw [Matrix.mul_diagonal]
      by_cases hi : d i = 0
      · rw [hi, Real.sqrt_zero, mul_zero]
        have := hdot i i
        rw [if_pos rfl, hi, Finset.sum_eq_zero_iff_of_nonneg (fun r _ => mul_self_nonneg _)] at this
        exact mul_self_eq_zero.mp (this r (Finset.mem_univ _))
      · rw [u2 r i hi, div_mul_cancel₀]
        exact (Real.sqrt_ne_zero (hd i)).mpr hi
    rw [← key, Matrix.mul_assoc, mul_eq_one_comm.mp v1, Matrix.mul_one]

theorem exists_svd {m n : Nat} (A : Matrix (Fin m) (Fin n) ℝ) : ∃ (U : Matrix (Fin m) (Fin (min m n)) ℝ) (s : List ℝ), IsSvd A U s := by
  have key : ∀ k : Nat, k = min m n → ∃ (U : Matrix (Fin m) (Fin k) ℝ) (s : List ℝ), IsSvd A U s := by
    intro k hk
    rcases Nat.le_total n m with h | h
    · rw [Nat.min_eq_right h] at hk
      subst hk
      obtain ⟨s, U, V, h1, h2, h3, h4, h5, h6⟩ := exists_svd_tall h A
      exact ⟨U, s, h1, h2, h3, h4, V, h5, h6⟩
    · rw [Nat.min_eq_left h] at hk
      subst hk
      obtain ⟨s, U, V, h1, h2, h3, h4, h5, h6⟩ := exists_svd_tall h A.transpose
      refine ⟨V, s, h1, h2, h3, h5, U, h4, ?_⟩
      have := congrArg Matrix.transpose h6
      rw [Matrix.transpose_transpose, Matrix.transpose_mul, Matrix.transpose_mul, Matrix.transpose_transpose,
        Matrix.diagonal_transpose, ← Matrix.mul_assoc] at this
      exact this
  exact key _ rfl

end LapackDense

/-- C79, C80, C81: there is an exact LAPACK over the reals whose `dgesvd_` always converges. -/
example : ∃ L : LapackDense ℝ, L.Exact ∧ ∀ m n a, (L.gesvd m n a).2.2 = 0 := by
  classical
  have h1 : ∀ (m n : Nat) (a : List ℝ), ∃ r : List ℝ × List ℝ × Int, r.1.length = m * n ∧ r.2.1.length = min m n ∧ r.2.2 = 0 ∧
      IsSvd (matOf m n a) (matOf m (min m n) r.1) r.2.1 := by
    intro m n a
    obtain ⟨U, s, hU⟩ := LapackDense.exists_svd (matOf m n a)
    let W : Matrix (Fin m) (Fin n) ℝ := fun i j => if hj : (j : Nat) < min m n then U i ⟨j, hj⟩ else 0
    refine ⟨(Eigen.listOf W, s, 0), Eigen.length_listOf W, hU.1, rfl, ?_⟩
    have e : matOf m (min m n) (Eigen.listOf W) = U := by
      funext i j
      have := congrFun (congrFun (Eigen.matOf_listOf W) i) (Fin.castLE (Nat.min_le_right m n) j)
      unfold matOf at this ⊢
      simp only [Fin.val_castLE] at this
      rw [this]
      have hlt : ((Fin.castLE (Nat.min_le_right m n) j : Fin n) : Nat) < min m n := j.isLt
      simp only [W, dif_pos hlt]
      rfl
    rw [e]
    exact hU
  have h2 : ∀ (m n : Nat) (a : List ℝ), ∃ q : List ℝ, q.length = m * n ∧
      (n ≤ m → IsPivotedQr (matOf m n a) (matOf m n q) (Equiv.refl _)) := by
    intro m n a
    by_cases h : n ≤ m
    · obtain ⟨Q, hQ⟩ := LapackDense.exists_qr h (matOf m n a)
      exact ⟨Eigen.listOf Q, Eigen.length_listOf Q, fun _ => by rw [Eigen.matOf_listOf]; exact hQ⟩
    · exact ⟨List.replicate (m * n) 0, by simp, fun h' => absurd h' h⟩
  have hrange : ∀ (n : Nat) (k : Fin n), (List.ofFn (fun k : Fin n => (k : Int) + 1)).getD k 0 = ((Equiv.refl (Fin n) k : Nat) : Int) + 1 := by
    intro n k
    simp [List.getD_eq_getElem?_getD]
  choose f hf1 hf2 hf3 hf4 using h1
  choose q hq1 hq2 using h2
  refine ⟨{ gesvdWork := fun m n => 5 * m + 5 * n + 5, gesvd := f, geqp3Work := fun m n => 3 * n + 1,
            geqp3 := fun m n a _ => (q m n a, List.ofFn (fun k : Fin n => (k : Int) + 1), List.replicate (min m n) 0),
            orgqrWork := fun m n k => n, orgqr := fun m n k a _ => (a, 0), getrf := fun n _ a => (a, List.replicate n 0),
            getriWork := fun n => n,
            getri := fun n a _ => (Eigen.listOf (matOf n n a)⁻¹, if IsUnit (matOf n n a).det then 0 else 1) }, ?_, hf3⟩
  refine { gesvdWork := fun m n _ _ => by push_cast; omega, gesvd := fun m n a _ _ _ => ⟨hf1 m n a, hf2 m n a⟩,
           geqp3Work := fun m n _ _ => by push_cast; omega,
           geqp3 := fun m n a p _ _ _ _ => ⟨hq1 m n a, by simp, by simp⟩, orgqrWork := fun m n k _ _ _ => le_refl _,
           orgqr := fun m n k a tau _ _ _ h _ => ⟨h, rfl⟩, getrf := fun n a _ h => ⟨h, by simp⟩, getriWork := fun n _ => le_refl _,
           getri := fun n a p _ _ _ => Eigen.length_listOf _, svd := fun m n a _ _ _ _ => hf4 m n a,
           qr := fun m n a _ h _ => ⟨Equiv.refl _, fun k => hrange n k, hq2 m n a h⟩,
           inverse := fun n a _ _ => ?_ }
  by_cases h : IsUnit (matOf n n a).det
  · refine ⟨⟨fun _ => h, fun _ => if_pos h⟩, fun _ => ?_⟩
    rw [Eigen.matOf_listOf]
    exact Matrix.nonsing_inv_mul _ h
  · have e : (if IsUnit (matOf n n a).det then (0 : Int) else 1) ≠ 0 := by rw [if_neg h]; decide
    exact ⟨⟨fun h' => absurd h' e, fun h' => absurd h' h⟩, fun h' => absurd h' e⟩

/-- C79 to C81: matrices of each kind: with an inverse, singular, not square, tall, wide. -/
example : (Dense.mk 2 2 [2, 1, 1, 1] : Dense Int).WF ∧ IsUnit ((Dense.mk 2 2 [2, 1, 1, 1] : Dense Int).mat 2 2).det ∧
    ¬ IsUnit ((Dense.mk 2 2 [2, 2, 1, 1] : Dense Int).mat 2 2).det ∧
    (Dense.mk 3 2 [1, 2, 3, 4, 5, 6] : Dense Int).WF ∧ (Dense.mk 1 2 [1, 2] : Dense Int).WF := by
  have e : ∀ a b c d : Int, ((Dense.mk 2 2 [a, b, c, d] : Dense Int).mat 2 2).det = a * d - c * b := by
    intro a b c d
    rw [Matrix.det_fin_two]
    rfl
  refine ⟨by decide, ?_, ?_, by decide, by decide⟩
  · rw [e]; exact isUnit_one
  · rw [e]; exact not_isUnit_zero

end Linalg
