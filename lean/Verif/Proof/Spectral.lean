import Mathlib.Analysis.InnerProductSpace.Spectrum
import Mathlib.LinearAlgebra.Eigenspace.Minpoly
import Mathlib.Analysis.SpecialFunctions.Trigonometric.Chebyshev.RootsExtrema

/-!
# Polynomials of self-adjoint maps, and the Chebyshev polynomials far from the origin
-/

namespace Linalg
open Polynomial

/-- If `|p| ≤ M` at every eigenvalue of a self-adjoint map that has an eigenvector not orthogonal to `e`, then `p(T) e` is at most `M` times as long as
`e`. -/
theorem spectral_bound {V : Type} [AddCommGroup V] [Module ℝ V] [FiniteDimensional ℝ V] (c : InnerProductSpace.Core ℝ V) (T : V →ₗ[ℝ] V)
    (hT : ∀ u v, c.inner (T u) v = c.inner u (T v)) (p : ℝ[X]) (M : ℝ) (e : V)
    (hM : ∀ (t : ℝ) (v : V), v ≠ 0 → T v = t • v → c.inner v e ≠ 0 → |p.eval t| ≤ M) :
    c.inner (aeval T p e) (aeval T p e) ≤ M ^ 2 * c.inner e e := by
  letI : NormedAddCommGroup V := @InnerProductSpace.Core.toNormedAddCommGroup ℝ V _ _ _ c
  letI : InnerProductSpace ℝ V := InnerProductSpace.ofCore c.toCore
  have hS : T.IsSymmetric := fun u v => hT u v
  let b := hS.eigenvectorBasis rfl
  let w := hS.eigenvalues rfl
  have hb : ∀ i, T (b i) = w i • b i := fun i => hS.apply_eigenvectorBasis rfl i
  have hp : ∀ i, aeval T p (b i) = p.eval (w i) • b i := fun i =>
    Module.End.aeval_apply_of_hasEigenvector (hS.hasEigenvector_eigenvectorBasis rfl i)
  have hr : ∀ i, inner ℝ (b i) (aeval T p e) = p.eval (w i) * inner ℝ (b i) e := by
    intro i
    conv_lhs => rw [← b.sum_repr e, map_sum]
    simp only [map_smul, hp]
    rw [inner_sum]
    simp only [inner_smul_right, orthonormal_iff_ite.mp b.orthonormal]
    rw [Finset.sum_eq_single i (fun j _ hj => by rw [if_neg hj.symm]; ring) (fun h => absurd (Finset.mem_univ i) h), if_pos rfl,
      b.repr_apply_apply]
    ring
  have h1 : ∀ y : V, c.inner y y = ∑ i, (inner ℝ (b i) y) ^ 2 := by
    intro y
    have := b.sum_sq_norm_inner_right y
    simp only [Real.norm_eq_abs, sq_abs] at this
    rw [this, ← real_inner_self_eq_norm_sq]
  rw [h1, h1, Finset.mul_sum]
  apply Finset.sum_le_sum
  intro i _
  rw [hr, mul_pow]
  by_cases hbe : inner ℝ (b i) e = 0
  · rw [hbe]
    simp
  apply mul_le_mul_of_nonneg_right _ (sq_nonneg _)
  have hv : b i ≠ 0 := fun h => by
    have := b.orthonormal.1 i
    rw [h, norm_zero] at this
    exact zero_ne_one this
  have := hM (w i) (b i) hv (hb i) hbe
  rw [← sq_abs]
  exact pow_le_pow_left₀ (abs_nonneg _) this 2

/-- The Chebyshev polynomial outside of `[-1, 1]` grows like a power. -/
theorem cheb_large (k : Nat) (z : ℝ) (hz : 0 < z) : z ^ k / 2 ≤ (Chebyshev.T ℝ k).eval ((z + z⁻¹) / 2) := by
  rw [← Real.cosh_log hz, Chebyshev.T_real_cosh]
  have : ((k : ℤ) : ℝ) * Real.log z = Real.log (z ^ k) := by rw [Real.log_pow]; norm_cast
  rw [this, Real.cosh_log (pow_pos hz k)]
  have := inv_pos.mpr (pow_pos hz k)
  linarith

/-- A polynomial that is one at zero and small on `[lo, hi]`. -/
theorem cheb_small (k : Nat) (lo hi : ℝ) (h0 : 0 < lo) (h1 : lo ≤ hi) :
    ∃ p : ℝ[X], p.natDegree ≤ k ∧ p.eval 0 = 1 ∧ ∀ t, lo ≤ t → t ≤ hi → |p.eval t| ≤ 2 * ((√hi - √lo) / (√hi + √lo)) ^ k := by
  have hl := Real.sqrt_pos.mpr h0
  have hlh := Real.sqrt_le_sqrt h1
  have el := Real.mul_self_sqrt h0.le
  have eh := Real.mul_self_sqrt (h0.le.trans h1)
  rcases eq_or_lt_of_le h1 with rfl | hlt
  · refine ⟨(1 - C (lo⁻¹) * X) ^ k, ?_, by simp, ?_⟩
    · refine natDegree_pow_le.trans ?_
      have : (1 - C (lo⁻¹) * X : ℝ[X]).natDegree ≤ 1 := by compute_degree
      calc k * _ ≤ k * 1 := Nat.mul_le_mul_left k this
        _ = k := mul_one k
    · intro t t0 t1
      obtain rfl : t = lo := le_antisymm t1 t0
      simp only [eval_pow, eval_sub, eval_one, eval_mul, eval_C, eval_X, sub_self, zero_div]
      rw [inv_mul_cancel₀ h0.ne', sub_self, abs_of_nonneg (by positivity)]
      have : (0 : ℝ) ≤ 0 ^ k := by positivity
      linarith
  · have hs : √lo < √hi := Real.sqrt_lt_sqrt h0.le hlt
    have hd : 0 < √hi - √lo := by linarith
    have hp : 0 < √hi + √lo := by linarith
    have hhl : 0 < hi - lo := by linarith
    set z := (√hi + √lo) / (√hi - √lo) with hz
    have z0 : 0 < z := div_pos hp hd
    set s := (hi + lo) / (hi - lo) with hs'
    have es : s = (z + z⁻¹) / 2 := by
      rw [hs', hz, inv_div]
      have : hi - lo = (√hi + √lo) * (√hi - √lo) := by linear_combination el - eh
      rw [this]
      field_simp
      linear_combination (-2 : ℝ) * el - 2 * eh
    have hT := cheb_large k z z0
    rw [← es] at hT
    have hTp : 0 < (Chebyshev.T ℝ k).eval s := lt_of_lt_of_le (by positivity) hT
    have hq : (C (-(2 / (hi - lo))) * X + C s : ℝ[X]).natDegree ≤ 1 := by compute_degree
    refine ⟨C ((Chebyshev.T ℝ k).eval s)⁻¹ * (Chebyshev.T ℝ k).comp (C (-(2 / (hi - lo))) * X + C s), ?_, ?_, ?_⟩
    · refine (natDegree_C_mul_le _ _).trans ?_
      refine natDegree_comp_le.trans ?_
      have := Chebyshev.natDegree_T ℝ k
      rw [this]
      calc (k : ℤ).natAbs * _ ≤ (k : ℤ).natAbs * 1 := Nat.mul_le_mul_left _ hq
        _ = k := by simp
    · simp only [eval_mul, eval_C, eval_comp, eval_add, eval_X, mul_zero, zero_add]
      exact inv_mul_cancel₀ hTp.ne'
    · intro t t0 t1
      simp only [eval_mul, eval_C, eval_comp, eval_add, eval_X]
      have hy : |-(2 / (hi - lo)) * t + s| ≤ 1 := by
        rw [hs', show -(2 / (hi - lo)) * t + (hi + lo) / (hi - lo) = (hi + lo - 2 * t) / (hi - lo) by field_simp; ring, abs_div, abs_of_pos hhl,
          div_le_one hhl, abs_le]
        constructor <;> linarith
      rw [abs_mul, abs_inv, abs_of_pos hTp]
      have hT1 := Chebyshev.abs_eval_T_real_le_one k hy
      calc _ ≤ ((Chebyshev.T ℝ k).eval s)⁻¹ * 1 := mul_le_mul_of_nonneg_left hT1 (inv_nonneg.mpr hTp.le)
        _ ≤ (z ^ k / 2)⁻¹ := by rw [mul_one]; exact inv_anti₀ (by positivity) hT
        _ = 2 * ((√hi - √lo) / (√hi + √lo)) ^ k := by
          rw [inv_div, hz, div_pow, div_pow]
          field_simp

end Linalg
