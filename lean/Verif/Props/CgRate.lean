import Verif.Props.CgOptimal
import Verif.Proof.Spectral
import Mathlib.LinearAlgebra.FiniteDimensional.Basic

/-!
# How fast conjugate gradients converges (C124)
-/

namespace Linalg
open Cpp Polynomial

/-- The vector with these elements and zeros around. -/
def extFn (n : Nat) (v : Fin n → ℝ) : Int → ℝ := fun i => if h : 0 ≤ i ∧ i < n then v ⟨i.toNat, by omega⟩ else 0

/-- The elements of a vector. -/
def resFn (n : Nat) (f : Int → ℝ) : Fin n → ℝ := fun i => f (i : Nat)

theorem resFn_extFn (n : Nat) (v : Fin n → ℝ) : resFn n (extFn n v) = v := by
  funext i
  unfold resFn extFn
  rw [dif_pos ⟨by omega, by omega⟩]
  simp

theorem extFn_resFn (n : Nat) (f : Int → ℝ) (i : Int) (h0 : 0 ≤ i) (h1 : i < n) : extFn n (resFn n f) i = f i := by
  unfold resFn extFn
  rw [dif_pos ⟨h0, h1⟩]
  congr 1
  simp [h0]

theorem extFn_add (n : Nat) (u v : Fin n → ℝ) : extFn n (u + v) = extFn n u + extFn n v := by
  funext i
  unfold extFn
  by_cases h : 0 ≤ i ∧ i < n
  · simp [h]
  · simp [h]

theorem extFn_smul (n : Nat) (c : ℝ) (v : Fin n → ℝ) : extFn n (c • v) = c • extFn n v := by
  funext i
  unfold extFn
  by_cases h : 0 ≤ i ∧ i < n
  · simp [h]
  · simp [h]

theorem extFn_zeroOn (n : Nat) (v : Fin n → ℝ) (h : ZeroOn n (extFn n v)) : v = 0 := by
  rw [← resFn_extFn n v]
  funext i
  exact h _ (by omega) (by have := i.isLt; omega)

/-- A polynomial of a map applied to a vector. -/
def polyFn (Z : (Int → ℝ) → Int → ℝ) (p : ℝ[X]) (k : Nat) (e : Int → ℝ) : Int → ℝ := ∑ j ∈ Finset.range (k + 1), p.coeff j • Z^[j] e

/-- `spectral_bound` for vectors of `n` elements, a positive definite form `F` and a map that is self-adjoint for it. -/
theorem poly_bound (n : Nat) (F : (Int → ℝ) → (Int → ℝ) → ℝ) (hF : Cg.Bilin F)
    (cF : ∀ u u' v v' : Int → ℝ, (∀ i, 0 ≤ i → i < (n : Int) → u i = u' i) → (∀ i, 0 ≤ i → i < (n : Int) → v i = v' i) → F u v = F u' v')
    (pF : ∀ v, ¬ ZeroOn n v → 0 < F v v) (Z : (Int → ℝ) → Int → ℝ) (hZ : Cg.Lin (K := ℝ) Z)
    (cZ : ∀ u u' : Int → ℝ, (∀ i, 0 ≤ i → i < (n : Int) → u i = u' i) → ∀ i, 0 ≤ i → i < (n : Int) → Z u i = Z u' i)
    (sZ : ∀ u v, F (Z u) v = F u (Z v)) (p : ℝ[X]) (k : Nat) (hk : p.natDegree ≤ k) (M : ℝ) (e : Int → ℝ)
    (hM : ∀ (t : ℝ) (v : Int → ℝ), ¬ ZeroOn n v → (∀ i, 0 ≤ i → i < (n : Int) → Z v i = t * v i) → F v e ≠ 0 → |p.eval t| ≤ M) :
    F (polyFn Z p k e) (polyFn Z p k e) ≤ M ^ 2 * F e e := by
  have pF0 : ∀ v, 0 ≤ F v v := by
    intro v
    by_cases h : ZeroOn n v
    · rw [cF v 0 v 0 h h, show F 0 0 = 0 by rw [← zero_smul ℝ (0 : Int → ℝ), hF.smul_left, zero_mul]]
    · exact (pF v h).le
  let c : InnerProductSpace.Core ℝ (Fin n → ℝ) :=
    { inner := fun u v => F (extFn n u) (extFn n v)
      conj_inner_symm := fun u v => hF.symm _ _
      re_inner_nonneg := fun u => pF0 _
      add_left := fun u v w => by
        show F (extFn n (u + v)) _ = _
        rw [extFn_add, hF.add_left]
      smul_left := fun u v r => by
        show F (extFn n (r • u)) _ = _
        rw [extFn_smul, hF.smul_left]
        rfl
      definite := fun u hu => by
        by_contra hne
        exact (pF (extFn n u) (fun h => hne (extFn_zeroOn n u h))).ne' hu }
  let T : (Fin n → ℝ) →ₗ[ℝ] (Fin n → ℝ) :=
    { toFun := fun v => resFn n (Z (extFn n v))
      map_add' := fun u v => by rw [extFn_add, hZ.add]; rfl
      map_smul' := fun r v => by rw [extFn_smul, hZ.smul]; rfl }
  have hT : ∀ v i, 0 ≤ i → i < (n : Int) → extFn n (T v) i = Z (extFn n v) i := fun v i i0 i1 => extFn_resFn n _ i i0 i1
  have key := spectral_bound c T (fun u v => by
    show F (extFn n (T u)) (extFn n v) = F (extFn n u) (extFn n (T v))
    rw [cF _ (Z (extFn n u)) _ (extFn n v) (hT u) (fun _ _ _ => rfl), cF (extFn n u) (extFn n u) _ (Z (extFn n v)) (fun _ _ _ => rfl) (hT v), sZ])
    p M (resFn n e) (fun t v hv htv hve => hM t (extFn n v) (fun h => hv (extFn_zeroOn n v h)) (fun i i0 i1 => by
      rw [← hT v i i0 i1, htv, extFn_smul]
      rfl) (by
      rw [cF (extFn n v) (extFn n v) e (extFn n (resFn n e)) (fun _ _ _ => rfl) (fun i i0 i1 => (extFn_resFn n e i i0 i1).symm)]
      exact hve))
  have hit : ∀ j i, 0 ≤ i → i < (n : Int) → extFn n ((T ^ j) (resFn n e)) i = Z^[j] e i := by
    intro j
    induction j with
    | zero => exact extFn_resFn n e
    | succ j ih =>
      intro i i0 i1
      rw [pow_succ', Function.iterate_succ_apply']
      show extFn n (T ((T ^ j) (resFn n e))) i = _
      rw [hT _ i i0 i1]
      exact cZ _ _ ih i i0 i1
  have hpoly : ∀ i, 0 ≤ i → i < (n : Int) → extFn n (aeval T p (resFn n e)) i = polyFn Z p k e i := by
    intro i i0 i1
    rw [aeval_eq_sum_range' (Nat.lt_succ_of_le hk)]
    have hs : extFn n ((∑ j ∈ Finset.range (k + 1), p.coeff j • T ^ j) (resFn n e)) = ∑ j ∈ Finset.range (k + 1), p.coeff j • extFn n ((T ^ j) (resFn n e)) := by
      rw [LinearMap.sum_apply]
      simp only [LinearMap.smul_apply]
      induction Finset.range (k + 1) using Finset.induction_on with
      | empty =>
        simp only [Finset.sum_empty]
        rw [← zero_smul ℝ (0 : Fin n → ℝ), extFn_smul, zero_smul]
      | insert j s hj ih => rw [Finset.sum_insert hj, Finset.sum_insert hj, extFn_add, extFn_smul, ih]
    rw [hs]
    unfold polyFn
    rw [Finset.sum_apply, Finset.sum_apply]
    exact Finset.sum_congr rfl (fun j _ => by rw [Pi.smul_apply, Pi.smul_apply, hit j i i0 i1])
  have e1 : c.inner (aeval T p (resFn n e)) (aeval T p (resFn n e)) = F (polyFn Z p k e) (polyFn Z p k e) := cF _ _ _ _ hpoly hpoly
  have e2 : c.inner (resFn n e) (resFn n e) = F e e := cF _ _ _ _ (extFn_resFn n e) (extFn_resFn n e)
  rw [e1, e2] at key
  exact key

/-- `(G A)^j (f - x)` is a Krylov vector. -/
theorem iter_kry {L G : (Int → ℝ) → Int → ℝ} (e : Int → ℝ) (j : Nat) : (fun v => G (L v))^[j + 1] e = Mr.kry L G (L e) j := by
  induction j with
  | zero => rfl
  | succ j ih => rw [Function.iterate_succ_apply', ih]; rfl

/-- **C124.**  A bound for the error CG and PCG leave: for every polynomial of degree at most the number of passes that is one at zero and at most `M` at the
eigenvalues of the (preconditioned) matrix, the error is at most `M` times the one of the start, in the norm of the matrix.  Only eigenvalues with an
eigenvector that is not orthogonal to the first residual matter. -/
theorem C124_spectral (S : Pcg ℝ) (n : Nat) (a m : Int → Int → ℝ) (h : S.Ok n a m) (hd : S.Spd n a m) (b x : List ℝ)
    (hb : b.length = n) (hx : x.length = n) (w : PcgState ℝ) (N : Int) (st : PcgState ℝ) (he : S.mult b x w = .ok (N, st)) (f : Int → ℝ)
    (hf : ∀ i : Int, 0 ≤ i → i < n → matVec n a f i = vecAt b i) (p : ℝ[X]) (hp : (p.natDegree : Int) < st.applied) (hp0 : p.eval 0 = 1) (M : ℝ)
    (hM : ∀ (t : ℝ) (v : Int → ℝ), ¬ ZeroOn n v → (∀ i : Int, 0 ≤ i → i < n → S.prec n m (matVec n a v) i = t * v i) →
      dotFn n v (residFn n a b x) ≠ 0 → |p.eval t| ≤ M) :
    energy n a (f - vecAt st.x) ≤ M ^ 2 * energy n a (f - vecAt x) := by
  obtain ⟨k, k1, -, -, k2⟩ := cg_core S n a m h hd b x hb hx w N st he
  have hk : p.natDegree ≤ k := by omega
  have hG : Cg.Lin (K := ℝ) (S.prec n m) := by
    unfold Pcg.prec
    cases S.M with
    | none => exact ⟨fun _ _ => rfl, fun _ _ => rfl⟩
    | some M => exact matVec_isLin n m
  have cG : ∀ u u' : Int → ℝ, (∀ i, 0 ≤ i → i < (n : Int) → u i = u' i) → ∀ i, 0 ≤ i → i < (n : Int) → S.prec n m u i = S.prec n m u' i := by
    intro u u' hu
    unfold Pcg.prec
    cases S.M with
    | none => exact hu
    | some M =>
      intro i _ _
      show matVec n m u i = matVec n m u' i
      rw [matVec_congr n m hu]
  have hL := matVec_isLin (K := ℝ) (n : Int) a
  have hr : ∀ i, 0 ≤ i → i < (n : Int) → residFn n a b x i = matVec n a (f - vecAt x) i := by
    intro i i0 i1
    rw [hL.sub]
    simp only [Pi.sub_apply, hf i i0 i1]
    rfl
  have key := poly_bound n (fun u v => dotFn n u (matVec n a v))
    ⟨fun u v w => (dotFn_bilin (n : Int)).add_left _ _ _, fun c u w => (dotFn_bilin (n : Int)).smul_left _ _ _,
      fun u v => by rw [← dotFn_selfAdj hd.a_symm, dotFn_symm]⟩
    (fun u u' v v' hu hv => by
      rw [matVec_congr n a hv]
      exact dotFn_congr _ hu (fun _ _ _ => rfl))
    hd.a_pos (fun v => S.prec n m (matVec n a v)) ⟨fun u v => by rw [hL.add, hG.add], fun c u => by rw [hL.smul, hG.smul]⟩
    (fun u u' hu => by rw [matVec_congr n a hu]; exact fun _ _ _ => rfl)
    (fun u v => by rw [hd.prec_symm, dotFn_selfAdj hd.a_symm])
    p k hk M (f - vecAt x) (fun t v hv e hve => hM t v hv e (fun hz => hve (by
      rw [← hz]
      exact dotFn_congr _ (fun _ _ _ => rfl) (fun i i0 i1 => (hr i i0 i1).symm))))
  have e0 : p.coeff 0 = 1 := by rw [coeff_zero_eq_eval_zero, hp0]
  -- the polynomial of the error is the error of a combination
  have hkry : ∀ j i, 0 ≤ i → i < (n : Int) → Mr.kry (matVec n a) (S.prec n m) (matVec n a (f - vecAt x)) j i
      = Mr.kry (matVec n a) (S.prec n m) (residFn n a b x) j i := by
    intro j
    induction j with
    | zero => exact fun i i0 i1 => (cG _ _ hr i i0 i1).symm
    | succ j ih =>
      intro i i0 i1
      show S.prec n m (matVec n a _) i = S.prec n m (matVec n a _) i
      rw [matVec_congr n a ih]
  have hpoly : ∀ i, 0 ≤ i → i < (n : Int) → polyFn (fun v => S.prec n m (matVec n a v)) p k (f - vecAt x) i
      = (f - comb x (Mr.kry (matVec n a) (S.prec n m) (residFn n a b x)) k (fun j => - p.coeff (j + 1))) i := by
    intro i i0 i1
    unfold polyFn comb
    rw [Finset.sum_range_succ', Function.iterate_zero, e0, one_smul]
    simp only [iter_kry, Pi.add_apply, Finset.sum_apply, Pi.smul_apply, Pi.sub_apply, id, smul_eq_mul]
    rw [Finset.sum_congr rfl (fun j _ => by rw [hkry j i i0 i1])]
    simp only [neg_mul, Finset.sum_neg_distrib]
    ring
  have e1 := k2 f (fun j => - p.coeff (j + 1)) hf
  have e2 : dotFn n (polyFn (fun v => S.prec n m (matVec n a v)) p k (f - vecAt x)) (matVec n a (polyFn (fun v => S.prec n m (matVec n a v)) p k (f - vecAt x)))
      = energy n a (f - comb x (Mr.kry (matVec n a) (S.prec n m) (residFn n a b x)) k (fun j => - p.coeff (j + 1))) := by
    unfold energy
    rw [matVec_congr n a hpoly]
    exact dotFn_congr _ hpoly (fun _ _ _ => rfl)
  rw [e2, e1] at key
  have := (energy_pos hd.a_pos (vecAt st.x - comb x (Mr.kry (matVec n a) (S.prec n m) (residFn n a b x)) k (fun j => - p.coeff (j + 1)))).1
  have e3 : dotFn n (f - vecAt x) (matVec n a (f - vecAt x)) = energy n a (f - vecAt x) := rfl
  rw [e3] at key
  linarith

/-- **C124.**  The rate of convergence: if the eigenvalues of the (preconditioned) matrix are between `lo` and `hi`, then after `k` passes the error is at most
`2 ((√hi - √lo) / (√hi + √lo)) ^ k` times the one of the start. -/
theorem C124_rate (S : Pcg ℝ) (n : Nat) (a m : Int → Int → ℝ) (h : S.Ok n a m) (hd : S.Spd n a m) (b x : List ℝ)
    (hb : b.length = n) (hx : x.length = n) (w : PcgState ℝ) (N : Int) (st : PcgState ℝ) (he : S.mult b x w = .ok (N, st)) (f : Int → ℝ)
    (hf : ∀ i : Int, 0 ≤ i → i < n → matVec n a f i = vecAt b i) (k : Nat) (hk : (k : Int) < st.applied) (lo hi : ℝ) (h0 : 0 < lo) (h1 : lo ≤ hi)
    (hev : ∀ (t : ℝ) (v : Int → ℝ), ¬ ZeroOn n v → (∀ i : Int, 0 ≤ i → i < n → S.prec n m (matVec n a v) i = t * v i) →
      dotFn n v (residFn n a b x) ≠ 0 → lo ≤ t ∧ t ≤ hi) :
    √(energy n a (f - vecAt st.x)) ≤ 2 * ((√hi - √lo) / (√hi + √lo)) ^ k * √(energy n a (f - vecAt x)) := by
  obtain ⟨p, p1, p2, p3⟩ := cheb_small k lo hi h0 h1
  have := C124_spectral S n a m h hd b x hb hx w N st he f hf p (by omega) p2 (2 * ((√hi - √lo) / (√hi + √lo)) ^ k)
    (fun t v hv e hr => p3 t (hev t v hv e hr).1 (hev t v hv e hr).2)
  have hq : 0 ≤ 2 * ((√hi - √lo) / (√hi + √lo)) ^ k := by
    have := Real.sqrt_le_sqrt h1
    have := Real.sqrt_nonneg lo
    have : 0 ≤ (√hi - √lo) / (√hi + √lo) := div_nonneg (by linarith) (by linarith)
    positivity
  calc _ ≤ √((2 * ((√hi - √lo) / (√hi + √lo)) ^ k) ^ 2 * energy n a (f - vecAt x)) := Real.sqrt_le_sqrt this
    _ = _ := by rw [Real.sqrt_mul (sq_nonneg _), Real.sqrt_sq hq]

/-- **C124.**  The rate for CG, from bounds of the form of the matrix. -/
theorem C124_rate_cg (S : Pcg ℝ) (n : Nat) (a m : Int → Int → ℝ) (h : S.Ok n a m) (hs : SymmOn n a) (hM : S.M = none) (b x : List ℝ)
    (hb : b.length = n) (hx : x.length = n) (w : PcgState ℝ) (N : Int) (st : PcgState ℝ) (he : S.mult b x w = .ok (N, st)) (f : Int → ℝ)
    (hf : ∀ i : Int, 0 ≤ i → i < n → matVec n a f i = vecAt b i) (k : Nat) (hk : (k : Int) < st.applied) (lo hi : ℝ) (h0 : 0 < lo)
    (hev : ∀ v : Int → ℝ, lo * dotFn n v v ≤ dotFn n v (matVec n a v) ∧ dotFn n v (matVec n a v) ≤ hi * dotFn n v v) :
    √(energy n a (f - vecAt st.x)) ≤ 2 * ((√hi - √lo) / (√hi + √lo)) ^ k * √(energy n a (f - vecAt x)) := by
  by_cases hn : n = 0
  · subst hn
    have z : ∀ v : Int → ℝ, energy ((0 : Nat) : Int) a v = 0 := fun v => rfl
    rw [z, z]
    simp
  have hd : S.Spd n a m := ⟨hs, fun v hv => lt_of_lt_of_le (mul_pos h0 (dotFn_self_pos hv)) (hev v).1, by rw [hM]; simp, by rw [hM]; simp⟩
  have ev : ∀ (t : ℝ) (v : Int → ℝ), ¬ ZeroOn n v → (∀ i : Int, 0 ≤ i → i < n → S.prec n m (matVec n a v) i = t * v i) → lo ≤ t ∧ t ≤ hi := by
    intro t v hv e
    have hp := dotFn_self_pos hv
    have e' : dotFn n v (matVec n a v) = t * dotFn n v v := by
      have : dotFn n v (matVec n a v) = dotFn n v (t • v) := dotFn_congr _ (fun _ _ _ => rfl) (fun i i0 i1 => by
        have := e i i0 i1
        unfold Pcg.prec at this
        rw [hM] at this
        exact this)
      rw [this, dotFn_symm, (dotFn_bilin (n : Int)).smul_left]
    have := hev v
    rw [e'] at this
    exact ⟨le_of_mul_le_mul_right this.1 hp, le_of_mul_le_mul_right this.2 hp⟩
  have hlh : lo ≤ hi := by
    have hv : ¬ ZeroOn n (fun _ => (1 : ℝ)) := fun hz => one_ne_zero (hz 0 le_rfl (by omega))
    exact le_of_mul_le_mul_right ((hev _).1.trans (hev _).2) (dotFn_self_pos hv)
  exact C124_rate S n a m h hd b x hb hx w N st he f hf k hk lo hi h0 hlh (fun t v hv e _ => ev t v hv e)

/-- **C124.**  With `d` different eigenvalues (of eigenvectors not orthogonal to the first residual), `d` passes give the solution. -/
theorem C124_distinct (S : Pcg ℝ) (n : Nat) (a m : Int → Int → ℝ) (h : S.Ok n a m) (hd : S.Spd n a m) (b x : List ℝ)
    (hb : b.length = n) (hx : x.length = n) (w : PcgState ℝ) (N : Int) (st : PcgState ℝ) (he : S.mult b x w = .ok (N, st)) (f : Int → ℝ)
    (hf : ∀ i : Int, 0 ≤ i → i < n → matVec n a f i = vecAt b i) (s : Finset ℝ) (hc : (s.card : Int) < st.applied)
    (hev : ∀ (t : ℝ) (v : Int → ℝ), ¬ ZeroOn n v → (∀ i : Int, 0 ≤ i → i < n → S.prec n m (matVec n a v) i = t * v i) →
      dotFn n v (residFn n a b x) ≠ 0 → t ∈ s) :
    ∀ i : Int, 0 ≤ i → i < n → vecAt st.x i = f i := by
  have hpos : ∀ (t : ℝ) (v : Int → ℝ), ¬ ZeroOn n v → (∀ i : Int, 0 ≤ i → i < n → S.prec n m (matVec n a v) i = t * v i) → t ≠ 0 := by
    rintro t v hv e rfl
    have hav : ¬ ZeroOn n (matVec n a v) := fun hz => by
      have := hd.a_pos v hv
      rw [dotFn_symm, dotFn_zero_left hz] at this
      exact lt_irrefl _ this
    have := hd.prec_pos _ hav
    rw [dotFn_symm, dotFn_zero_left (fun i i0 i1 => by rw [e i i0 i1, zero_mul])] at this
    exact lt_irrefl _ this
  have hdeg : (∏ t ∈ s, (1 - C t⁻¹ * X : ℝ[X])).natDegree ≤ s.card := by
    refine (natDegree_prod_le _ _).trans ?_
    calc _ ≤ ∑ t ∈ s, 1 := Finset.sum_le_sum (fun t _ => by compute_degree)
      _ = s.card := by simp
  have key := C124_spectral S n a m h hd b x hb hx w N st he f hf (∏ t ∈ s, (1 - C t⁻¹ * X)) (by omega)
    (by rw [eval_prod]; exact Finset.prod_eq_one (fun t _ => by simp)) 0 (fun t v hv e hr => by
      rw [eval_prod, Finset.prod_eq_zero (hev t v hv e hr) (by simp [inv_mul_cancel₀ (hpos t v hv e)]), abs_zero])
  have h0 := energy_pos hd.a_pos (f - vecAt st.x)
  have hz := h0.2.mp (by nlinarith [h0.1])
  intro i i0 i1
  have := hz i i0 i1
  rw [Pi.sub_apply] at this
  linarith

/-- The matrix `[[2, 1], [1, 3]]` with real numbers. -/
def exSpdR : Csr ℝ := ⟨2, 2, [0, 2, 4], [0, 1, 0, 1], [2, 1, 1, 3]⟩

theorem exSpdR_wf : exSpdR.WF :=
  ⟨by simp [exSpdR], by simp [exSpdR], by simp [exSpdR], rfl, by simp [exSpdR], by simp [exSpdR], rfl, by simp [exSpdR]⟩

theorem exSpdR_coef : exSpdR.coef 0 0 = 2 ∧ exSpdR.coef 0 1 = 1 ∧ exSpdR.coef 1 0 = 1 ∧ exSpdR.coef 1 1 = 3 := by
  have r0 : exSpdR.row 0 = [(0, 2), (1, 1)] := rfl
  have r1 : exSpdR.row 1 = [(0, 1), (1, 3)] := rfl
  refine ⟨?_, ?_, ?_, ?_⟩ <;> simp [Csr.coef, r0, r1]

/-- Its form is between one and four times the square of the length, so every pass divides the bound of the error by three: for any right-hand side,
start, tolerances and limit. -/
example (S : Pcg ℝ) (hA : S.A = exSpdR.toOp) (hM : S.M = none) (hdot : S.dot = Vec.inner) (b x : List ℝ) (hb : b.length = 2) (hx : x.length = 2)
    (w : PcgState ℝ) (N : Int) (st : PcgState ℝ) (he : S.mult b x w = .ok (N, st)) (f : Int → ℝ)
    (hf : ∀ i : Int, 0 ≤ i → i < ((2 : Nat) : Int) → matVec ((2 : Nat) : Int) exSpdR.coef f i = vecAt b i) (k : Nat) (hk : (k : Int) < st.applied) :
    √(energy ((2 : Nat) : Int) exSpdR.coef (f - vecAt st.x)) ≤ 2 * (1 / 3) ^ k * √(energy ((2 : Nat) : Int) exSpdR.coef (f - vecAt x)) := by
  have hs : SymmOn ((2 : Nat) : Int) exSpdR.coef := by
    intro i j i0 i1 j0 j1
    obtain ⟨c0, c1, c2, c3⟩ := exSpdR_coef
    obtain rfl | rfl : i = 0 ∨ i = 1 := by omega
    all_goals obtain rfl | rfl : j = 0 ∨ j = 1 := by omega
    · rfl
    · rw [c1, c2]
    · rw [c1, c2]
    · rfl
  have hok : S.Ok ((2 : Nat) : Int) exSpdR.coef exSpdR.coef :=
    ⟨by rw [hA]; exact C42_sparse_op exSpdR exSpdR_wf rfl, by rw [hM]; simp, hdot⟩
  have key := C124_rate_cg S 2 exSpdR.coef exSpdR.coef hok hs hM b x hb hx w N st he f hf k hk 1 4 one_pos (by
    intro v
    have e : Finset.Ico (0 : Int) ((2 : Nat) : Int) = {0, 1} := by decide
    obtain ⟨c0, c1, c2, c3⟩ := exSpdR_coef
    simp only [dotFn, matVec, e, Finset.sum_pair (show (0 : Int) ≠ 1 by decide), c0, c1, c2, c3]
    constructor <;> nlinarith [sq_nonneg (v 0 + v 1), sq_nonneg (v 0 - v 1), sq_nonneg (v 0), sq_nonneg (v 1)])
  rw [show √(4 : ℝ) = 2 by rw [show (4 : ℝ) = 2 ^ 2 by norm_num]; exact Real.sqrt_sq (by norm_num), Real.sqrt_one] at key
  norm_num at key ⊢
  exact key

end Linalg
