import Verif.Props.MinresRate

/-!
# How many iterations MINRES reports (C82, C83)
-/

namespace Linalg
open Cpp

/-- A run that ended before its limit is the same with a higher one. -/
theorem Minres.loop_more (S : Minres ℝ) (m : Int) (tol : ℝ) {f f' : Nat} (hf : f ≤ f') {c N : Int} {s st : MinresState ℝ}
    (h : loop { S with maxIter := m } tol f c s = .ok (N, st)) (hN : N < c + f) : S.loop tol f' c s = .ok (N, st) := by
  induction f generalizing f' c s with
  | zero =>
    unfold loop at h
    simp only [Except.ok.injEq, Prod.mk.injEq] at h
    omega
  | succ f ih =>
    obtain ⟨g, rfl⟩ : ∃ g, f' = g + 1 := ⟨f' - 1, by omega⟩
    unfold loop at h ⊢
    obtain ⟨t, e, h⟩ := bind_eq_ok.mp h
    rw [show S.step tol s = Except.ok t from e, ok_bind]
    by_cases ht : t.1 = true
    · rw [if_pos ht] at h ⊢
      exact h
    · rw [if_neg ht] at h ⊢
      exact ih (by omega) h (by push_cast at hN; omega)

/-- The same for PMINRES. -/
theorem Pminres.loop_more (S : Minres ℝ) (M : Op ℝ) (m : Int) (tol : ℝ) {f f' : Nat} (hf : f ≤ f') {c N : Int} {s st : PminresState ℝ}
    (h : loop { S with maxIter := m } M tol f c s = .ok (N, st)) (hN : N < c + f) : loop S M tol f' c s = .ok (N, st) := by
  induction f generalizing f' c s with
  | zero =>
    unfold loop at h
    simp only [Except.ok.injEq, Prod.mk.injEq] at h
    omega
  | succ f ih =>
    obtain ⟨g, rfl⟩ : ∃ g, f' = g + 1 := ⟨f' - 1, by omega⟩
    unfold loop at h ⊢
    obtain ⟨t, e, h⟩ := bind_eq_ok.mp h
    rw [show step S M tol s = Except.ok t from e, ok_bind]
    by_cases ht : t.1 = true
    · rw [if_pos ht] at h ⊢
      exact h
    · rw [if_neg ht] at h ⊢
      exact ih (by omega) h (by push_cast at hN; omega)

/-- **C82.**  How many iterations MINRES needs for a system with a solution: if the bound of `C82_rate` after `k` passes is below the square of the relative tolerance
(which is what the code multiplies the first norm with), and the limit is at least `k`, it stops because the tolerance is met and reports at most `k` iterations. -/
theorem C82_iterations (S : Minres ℝ) (n : Nat) (a : Int → Int → ℝ) (hA : S.A.IsMat n a) (sa : SymmOn n a)
    (hdot : S.dot = Vec.inner) (hs : IsSqrt S.sqrt) (b x : List ℝ) (hb : b.length = n) (hx : x.length = n) (w : MinresState ℝ)
    (h0 : w.w0.length = n) (h1 : w.w1.length = n) (h2 : w.v0.length = n) (hcons : Consistent n a b)
    (hr : ¬ ZeroOn n (residFn n a b x)) (k : Nat) (hk1 : 1 ≤ k) (hk : (k : Int) ≤ S.maxIter) (lo hi : ℝ) (hlo : 0 < lo) (hlh : lo ≤ hi)
    (hev : ((∀ (t : ℝ) (v : Int → ℝ), ¬ ZeroOn n v → (∀ i : Int, 0 ≤ i → i < n → matVec n a v i = t * v i) → t ≠ 0 → lo ≤ t ∧ t ≤ hi) ∧
        2 * ((√hi - √lo) / (√hi + √lo)) ^ k < S.relTol ^ 2) ∨
      ((∀ (t : ℝ) (v : Int → ℝ), ¬ ZeroOn n v → (∀ i : Int, 0 ≤ i → i < n → matVec n a v i = t * v i) → t ≠ 0 → lo ≤ |t| ∧ |t| ≤ hi) ∧
        2 * ((hi - lo) / (hi + lo)) ^ (k / 2) < S.relTol ^ 2)) :
    ∃ N st, S.mult b x w = .ok (N, st) ∧ N ≤ k ∧
      √(dotFn n (residFn n a b st.x) (residFn n a b st.x))
        < max (S.relTol ^ 2 * √(dotFn n (residFn n a b x) (residFn n a b x))) (S.absTol ^ 2) := by
  have hq1 : 0 ≤ (√hi - √lo) / (√hi + √lo) := by
    have := Real.sqrt_le_sqrt hlh
    have := Real.sqrt_nonneg lo
    exact div_nonneg (by linarith) (by linarith)
  have hq2 : 0 ≤ (hi - lo) / (hi + lo) := div_nonneg (by linarith) (by linarith)
  have hrel : S.relTol ≠ 0 := by
    intro hz
    rw [hz] at hev
    rcases hev with ⟨-, h⟩ | ⟨-, h⟩
    · have := pow_nonneg hq1 k
      norm_num at h
      linarith
    · have := pow_nonneg hq2 (k / 2)
      norm_num at h
      linarith
  have hsq : ∀ d : ℝ, 0 ≤ d → S.sqrt d = √d := fun d hd => by
    obtain ⟨s1, s2⟩ := hs d hd
    rw [← Real.sqrt_mul_self s1, s2]
  have hd0 := dotFn_self_pos hr
  obtain ⟨N, st, e, -⟩ := C82_terminates { S with maxIter := (k : Int) } n a hA sa hdot hs b x hb hx w h0 h1 h2 hcons hr (Or.inl hrel)
  obtain ⟨p, p1, -, p2, -, -, p3⟩ := C82_minimal { S with maxIter := (k : Int) } n a hA sa hdot hs b x hb hx w h0 h1 h2 N st e
  have habs : |st.eta| = √(dotFn n (residFn n a b st.x) (residFn n a b st.x)) := by rw [← p2, Real.sqrt_mul_self_eq_abs]
  have htol : Minres.tolOf { S with maxIter := (k : Int) } (dotFn n (residFn n a b x) (residFn n a b x))
      = max (S.relTol ^ 2 * √(dotFn n (residFn n a b x) (residFn n a b x))) (S.absTol ^ 2) := by
    unfold Minres.tolOf
    show max (S.sqrt _ * S.relTol * S.relTol) (S.absTol * S.absTol) = _
    rw [hsq _ hd0.le]
    congr 1 <;> ring
  simp only at p3
  rw [htol, habs] at p3
  rcases p3 with ⟨q1, q2, q3, q4⟩ | ⟨q1, q2, q3⟩
  · refine ⟨N, st, ?_, q3, q4⟩
    have e2 := e
    rw [Minres.mult_eq { S with maxIter := (k : Int) } hA hdot b x hb hx w h0 h1 h2] at e2
    rw [Minres.mult_eq S hA hdot b x hb hx w h0 h1 h2]
    exact Minres.loop_more S k _ (f := ((k : Int)).toNat) (by omega) e2 (by omega)
  · exfalso
    have hlt : √(dotFn n (residFn n a b st.x) (residFn n a b st.x)) < S.relTol ^ 2 * √(dotFn n (residFn n a b x) (residFn n a b x)) := by
      have rate := C82_rate { S with maxIter := (k : Int) } n a hA sa hdot hs b x hb hx w h0 h1 h2 hcons N st e k (by omega) lo hi hlo hlh
      rcases hev with ⟨he, hq⟩ | ⟨he, hq⟩
      · exact lt_of_le_of_lt (rate.1 he) (mul_lt_mul_of_pos_right hq (Real.sqrt_pos.mpr hd0))
      · exact lt_of_le_of_lt (rate.2 he) (mul_lt_mul_of_pos_right hq (Real.sqrt_pos.mpr hd0))
    exact absurd (lt_max_of_lt_left hlt) (not_lt.mpr (q3 (by omega)))

/-- **C83.**  The same for PMINRES, with the eigenvalues of the preconditioned matrix and the norm of the preconditioner. -/
theorem C83_iterations (S : Minres ℝ) (M : Op ℝ) (n : Nat) (a m : Int → Int → ℝ) (hA : S.A.IsMat n a)
    (hM : M.IsMat n m) (sa : SymmOn n a) (sm : SymmOn n m) (pm : PosDefOn n m)
    (hdot : S.dot = Vec.inner) (hs : IsSqrt S.sqrt) (b x : List ℝ) (hb : b.length = n) (hx : x.length = n) (w : PminresState ℝ)
    (h0 : w.w0.length = n) (h1 : w.w1.length = n) (h2 : w.v0.length = n) (hcons : Consistent n a b)
    (hr : ¬ ZeroOn n (residFn n a b x)) (k : Nat) (hk1 : 1 ≤ k) (hk : (k : Int) ≤ S.maxIter) (lo hi : ℝ) (hlo : 0 < lo) (hlh : lo ≤ hi)
    (hev : ((∀ (t : ℝ) (v : Int → ℝ), ¬ ZeroOn n v → (∀ i : Int, 0 ≤ i → i < n → matVec n a (matVec n m v) i = t * v i) → t ≠ 0 → lo ≤ t ∧ t ≤ hi) ∧
        2 * ((√hi - √lo) / (√hi + √lo)) ^ k < S.relTol ^ 2) ∨
      ((∀ (t : ℝ) (v : Int → ℝ), ¬ ZeroOn n v → (∀ i : Int, 0 ≤ i → i < n → matVec n a (matVec n m v) i = t * v i) → t ≠ 0 → lo ≤ |t| ∧ |t| ≤ hi) ∧
        2 * ((hi - lo) / (hi + lo)) ^ (k / 2) < S.relTol ^ 2)) :
    ∃ N st, Pminres.mult S M b x w = .ok (N, st) ∧ N ≤ k ∧
      √(dotFn n (residFn n a b st.x) (matVec n m (residFn n a b st.x)))
        < max (S.relTol ^ 2 * √(dotFn n (residFn n a b x) (matVec n m (residFn n a b x)))) (S.absTol ^ 2) := by
  have hq1 : 0 ≤ (√hi - √lo) / (√hi + √lo) := by
    have := Real.sqrt_le_sqrt hlh
    have := Real.sqrt_nonneg lo
    exact div_nonneg (by linarith) (by linarith)
  have hq2 : 0 ≤ (hi - lo) / (hi + lo) := div_nonneg (by linarith) (by linarith)
  have hrel : S.relTol ≠ 0 := by
    intro hz
    rw [hz] at hev
    rcases hev with ⟨-, h⟩ | ⟨-, h⟩
    · have := pow_nonneg hq1 k
      norm_num at h
      linarith
    · have := pow_nonneg hq2 (k / 2)
      norm_num at h
      linarith
  have hsq : ∀ d : ℝ, 0 ≤ d → S.sqrt d = √d := fun d hd => by
    obtain ⟨s1, s2⟩ := hs d hd
    rw [← Real.sqrt_mul_self s1, s2]
  have hd0 := pm _ hr
  obtain ⟨N, st, e, -⟩ := C83_terminates { S with maxIter := (k : Int) } M n a m hA hM sa sm pm hdot hs b x hb hx w h0 h1 h2 hcons hr (Or.inl hrel)
  obtain ⟨p, p1, -, p2, -, -, p3⟩ := C83_minimal { S with maxIter := (k : Int) } M n a m hA hM sa sm pm hdot hs b x hb hx w h0 h1 h2 N st e
  have habs : |st.eta| = √(dotFn n (residFn n a b st.x) (matVec n m (residFn n a b st.x))) := by rw [← p2, Real.sqrt_mul_self_eq_abs]
  have htol : Minres.tolOf { S with maxIter := (k : Int) } (dotFn n (residFn n a b x) (matVec n m (residFn n a b x)))
      = max (S.relTol ^ 2 * √(dotFn n (residFn n a b x) (matVec n m (residFn n a b x)))) (S.absTol ^ 2) := by
    unfold Minres.tolOf
    show max (S.sqrt _ * S.relTol * S.relTol) (S.absTol * S.absTol) = _
    rw [hsq _ hd0.le]
    congr 1 <;> ring
  simp only at p3
  rw [htol, habs] at p3
  rcases p3 with ⟨q1, q2, q3, q4⟩ | ⟨q1, q2, q3⟩
  · refine ⟨N, st, ?_, q3, q4⟩
    have e2 := e
    rw [Pminres.mult_eq { S with maxIter := (k : Int) } M hA hM hdot b x hb hx w h0 h1 h2] at e2
    rw [Pminres.mult_eq S M hA hM hdot b x hb hx w h0 h1 h2]
    exact Pminres.loop_more S M k _ (f := ((k : Int)).toNat) (by omega) e2 (by omega)
  · exfalso
    have hlt : √(dotFn n (residFn n a b st.x) (matVec n m (residFn n a b st.x))) < S.relTol ^ 2 * √(dotFn n (residFn n a b x) (matVec n m (residFn n a b x))) := by
      have rate := C83_rate { S with maxIter := (k : Int) } M n a m hA hM sa sm pm hdot hs b x hb hx w h0 h1 h2 hcons N st e k (by omega) lo hi hlo hlh
      rcases hev with ⟨he, hq⟩ | ⟨he, hq⟩
      · exact lt_of_le_of_lt (rate.1 he) (mul_lt_mul_of_pos_right hq (Real.sqrt_pos.mpr hd0))
      · exact lt_of_le_of_lt (rate.2 he) (mul_lt_mul_of_pos_right hq (Real.sqrt_pos.mpr hd0))
    exact absurd (lt_max_of_lt_left hlt) (not_lt.mpr (q3 (by omega)))

/-- The hypotheses hold for the singular matrix `[[1, -1], [-1, 1]]`, whose one nonzero eigenvalue is two: one iteration. -/
example (w : MinresState ℝ) (h0 : w.w0.length = 2) (h1 : w.w1.length = 2) (h2 : w.v0.length = 2) :
    ∃ N st, (⟨exLap.toOp, 5, 1 / 100, 0, Real.sqrt, Vec.inner⟩ : Minres ℝ).mult [1, -1] [0, 0] w = .ok (N, st) ∧ N ≤ 1 := by
  obtain ⟨c1, c2, c3, c4⟩ := exLap_coef
  have e : Finset.Ico (0 : Int) ((2 : Nat) : Int) = {0, 1} := by decide
  obtain ⟨N, st, h, hN, -⟩ := C82_iterations (⟨exLap.toOp, 5, 1 / 100, 0, Real.sqrt, Vec.inner⟩ : Minres ℝ) 2 exLap.coef
    (C42_sparse_op exLap (by decide +kernel) rfl) exLap_symm rfl isSqrt_real [1, -1] [0, 0] rfl rfl w h0 h1 h2 exLap_consistent exLap_resid
    1 le_rfl (by decide) 2 2 two_pos le_rfl (Or.inl ⟨fun t v hv hev ht => by
      have e0 := hev 0 (by decide) (by decide)
      have e1 := hev 1 (by decide) (by decide)
      simp only [matVec, e, Finset.sum_pair (show (0 : Int) ≠ 1 by decide), c1, c2, c3, c4] at e0 e1
      have hs : v 0 + v 1 = 0 := (mul_eq_zero.mp (show t * (v 0 + v 1) = 0 by linarith)).resolve_left ht
      have hz : (t - 2) * v 0 = 0 := by linear_combination -e0 - hs
      rcases mul_eq_zero.mp hz with h | h
      · exact ⟨by linarith, by linarith⟩
      · exfalso
        apply hv
        intro i i0 i1
        obtain rfl | rfl : i = 0 ∨ i = 1 := by omega
        · exact h
        · linarith, by norm_num⟩)
  exact ⟨N, st, h, by exact_mod_cast hN⟩

/-- The same with the preconditioner `diag(2, 3)`; the one nonzero eigenvalue is five. -/
example (w : PminresState ℝ) (h0 : w.w0.length = 2) (h1 : w.w1.length = 2) (h2 : w.v0.length = 2) :
    ∃ N st, Pminres.mult (⟨exLap.toOp, 5, 1 / 100, 0, Real.sqrt, Vec.inner⟩ : Minres ℝ) exDiag.toOp [1, -1] [0, 0] w = .ok (N, st) ∧ N ≤ 1 := by
  obtain ⟨c1, c2, c3, c4⟩ := exLap_coef
  obtain ⟨d1, d2, d3, d4⟩ := exDiag_coef
  have e : Finset.Ico (0 : Int) ((2 : Nat) : Int) = {0, 1} := by decide
  obtain ⟨N, st, h, hN, -⟩ := C83_iterations (⟨exLap.toOp, 5, 1 / 100, 0, Real.sqrt, Vec.inner⟩ : Minres ℝ) exDiag.toOp 2 exLap.coef exDiag.coef
    (C42_sparse_op exLap (by decide +kernel) rfl) (C42_sparse_op exDiag (by decide +kernel) rfl) exLap_symm exDiag_symm exDiag_pos
    rfl isSqrt_real [1, -1] [0, 0] rfl rfl w h0 h1 h2 exLap_consistent exLap_resid
    1 le_rfl (by decide) 5 5 (by norm_num) le_rfl (Or.inl ⟨fun t v hv hev ht => by
      have e0 := hev 0 (by decide) (by decide)
      have e1 := hev 1 (by decide) (by decide)
      simp only [matVec, e, Finset.sum_pair (show (0 : Int) ≠ 1 by decide), c1, c2, c3, c4, d1, d2, d3, d4] at e0 e1
      have hs : v 0 + v 1 = 0 := (mul_eq_zero.mp (show t * (v 0 + v 1) = 0 by linarith)).resolve_left ht
      have hz : (t - 5) * v 0 = 0 := by linear_combination -e0 - 3 * hs
      rcases mul_eq_zero.mp hz with h | h
      · exact ⟨by linarith, by linarith⟩
      · exfalso
        apply hv
        intro i i0 i1
        obtain rfl | rfl : i = 0 ∨ i = 1 := by omega
        · exact h
        · linarith, by norm_num⟩)
  exact ⟨N, st, h, by exact_mod_cast hN⟩

end Linalg
