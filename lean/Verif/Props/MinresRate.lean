import Verif.Props.CgRate
import Verif.Props.Minres

/-!
# How fast MINRES converges (C82, C83)
-/

namespace Linalg
open Cpp Polynomial

/-- `(A G)^(j+1) r` is the image of a Krylov vector. -/
theorem iter_kry' {L G : (Int → ℝ) → Int → ℝ} (r : Int → ℝ) (j : Nat) : (fun v => L (G v))^[j + 1] r = L (Mr.kry L G r j) := by
  induction j with
  | zero => rfl
  | succ j ih => rw [Function.iterate_succ_apply', ih]; rfl

/-- The polynomial of the first residual is the residual of a combination. -/
theorem resid_poly {n : Nat} {a : Int → Int → ℝ} {G : (Int → ℝ) → Int → ℝ} (b x : List ℝ) (p : ℝ[X]) (k : Nat) (hp : p.eval 0 = 1) :
    polyFn (fun v => matVec n a (G v)) p k (residFn n a b x)
      = vecAt b - matVec n a (comb x (Mr.kry (matVec n a) G (residFn n a b x)) k (fun j => - p.coeff (j + 1))) := by
  have hL := matVec_isLin (K := ℝ) (n : Int) a
  have hsum : ∀ (s : Finset Nat) (g : Nat → Int → ℝ), matVec (n : Int) a (∑ j ∈ s, g j) = ∑ j ∈ s, matVec n a (g j) := by
    intro s g
    induction s using Finset.induction_on with
    | empty =>
      simp only [Finset.sum_empty]
      exact Mr.Lin.zero hL
    | insert j s hj ih => rw [Finset.sum_insert hj, Finset.sum_insert hj, hL.add, ih]
  have hc : comb x (Mr.kry (matVec n a) G (residFn n a b x)) k (fun j => - p.coeff (j + 1))
      = vecAt x + ∑ j ∈ Finset.range k, (- p.coeff (j + 1)) • Mr.kry (matVec n a) G (residFn n a b x) j := by
    funext i
    simp [comb, Finset.sum_apply]
  have e0 : p.coeff 0 = 1 := by rw [coeff_zero_eq_eval_zero, hp]
  rw [hc, hL.add, hsum, Finset.sum_congr rfl (fun j _ => hL.smul _ _)]
  unfold polyFn
  rw [Finset.sum_range_succ', Function.iterate_zero, e0, one_smul]
  simp only [iter_kry', neg_smul, Finset.sum_neg_distrib, id]
  generalize (∑ j ∈ Finset.range k, p.coeff (j + 1) • matVec n a (Mr.kry (matVec n a) G (residFn n a b x) j) : Int → ℝ) = y
  rw [show residFn n a b x = vecAt b - matVec n a (vecAt x) from rfl]
  abel

/-- **C82.**  A bound for the residual MINRES leaves: for every polynomial of degree at most the number of passes that is one at zero and at most `M` at the
eigenvalues of the symmetric matrix, the residual is at most `M` times the first one.  Only eigenvalues with an eigenvector that is not orthogonal to
the first residual matter. -/
theorem C82_spectral (S : Minres ℝ) (n : Nat) (a : Int → Int → ℝ) (hA : S.A.IsMat n a) (sa : SymmOn n a)
    (hdot : S.dot = Vec.inner) (hs : IsSqrt S.sqrt) (b x : List ℝ) (hb : b.length = n) (hx : x.length = n) (w : MinresState ℝ)
    (h0 : w.w0.length = n) (h1 : w.w1.length = n) (h2 : w.v0.length = n) (N : Int) (st : MinresState ℝ)
    (h : S.mult b x w = .ok (N, st)) (p : ℝ[X]) (hp : (p.natDegree : Int) < st.applied) (hp0 : p.eval 0 = 1) (M : ℝ)
    (hM : ∀ (t : ℝ) (v : Int → ℝ), ¬ ZeroOn n v → (∀ i : Int, 0 ≤ i → i < n → matVec n a v i = t * v i) → dotFn n v (residFn n a b x) ≠ 0 →
      |p.eval t| ≤ M) :
    dotFn n (residFn n a b st.x) (residFn n a b st.x) ≤ M ^ 2 * dotFn n (residFn n a b x) (residFn n a b x) := by
  obtain ⟨k, k1, -, -, -, k2, -⟩ := C82_minimal S n a hA sa hdot hs b x hb hx w h0 h1 h2 N st h
  have key := poly_bound n (dotFn n) (dotFn_bilin (n : Int)) (fun u u' v v' hu hv => dotFn_congr _ hu hv) (fun v hv => dotFn_self_pos hv)
    (fun v => matVec n a (id v)) (matVec_isLin n a) (fun u u' hu => by simp only [id]; rw [matVec_congr n a hu]; exact fun _ _ _ => rfl)
    (dotFn_selfAdj sa) p k (by omega) M (residFn n a b x) hM
  rw [resid_poly b x p k hp0] at key
  have := k2 (fun j => - p.coeff (j + 1))
  rw [krylovVec_eq] at this
  exact this.trans key

/-- **C83.**  The same for PMINRES, in the norm of the preconditioner. -/
theorem C83_spectral (S : Minres ℝ) (M : Op ℝ) (n : Nat) (a m : Int → Int → ℝ) (hA : S.A.IsMat n a)
    (hM : M.IsMat n m) (sa : SymmOn n a) (sm : SymmOn n m) (pm : PosDefOn n m)
    (hdot : S.dot = Vec.inner) (hs : IsSqrt S.sqrt) (b x : List ℝ) (hb : b.length = n) (hx : x.length = n) (w : PminresState ℝ)
    (h0 : w.w0.length = n) (h1 : w.w1.length = n) (h2 : w.v0.length = n) (N : Int) (st : PminresState ℝ)
    (h : Pminres.mult S M b x w = .ok (N, st)) (p : ℝ[X]) (hp : (p.natDegree : Int) < st.applied) (hp0 : p.eval 0 = 1) (B : ℝ)
    (hB : ∀ (t : ℝ) (v : Int → ℝ), ¬ ZeroOn n v → (∀ i : Int, 0 ≤ i → i < n → matVec n a (matVec n m v) i = t * v i) →
      dotFn n v (matVec n m (residFn n a b x)) ≠ 0 → |p.eval t| ≤ B) :
    dotFn n (residFn n a b st.x) (matVec n m (residFn n a b st.x)) ≤ B ^ 2 * dotFn n (residFn n a b x) (matVec n m (residFn n a b x)) := by
  obtain ⟨k, k1, -, -, -, k2, -⟩ := C83_minimal S M n a m hA hM sa sm pm hdot hs b x hb hx w h0 h1 h2 N st h
  have hL := matVec_isLin (K := ℝ) (n : Int) a
  have hG := matVec_isLin (K := ℝ) (n : Int) m
  have key := poly_bound n (fun u v => dotFn n u (matVec n m v))
    ⟨fun u v w => (dotFn_bilin (n : Int)).add_left _ _ _, fun c u w => (dotFn_bilin (n : Int)).smul_left _ _ _,
      fun u v => by rw [← dotFn_selfAdj sm, dotFn_symm]⟩
    (fun u u' v v' hu hv => by
      rw [matVec_congr n m hv]
      exact dotFn_congr _ hu (fun _ _ _ => rfl))
    pm (fun v => matVec n a (matVec n m v)) ⟨fun u v => by rw [hG.add, hL.add], fun c u => by rw [hG.smul, hL.smul]⟩
    (fun u u' hu => by rw [matVec_congr n m hu]; exact fun _ _ _ => rfl)
    (fun u v => by rw [dotFn_selfAdj sa, dotFn_selfAdj sm]) p k (by omega) B (residFn n a b x) hB
  rw [resid_poly b x p k hp0] at key
  have := k2 (fun j => - p.coeff (j + 1))
  rw [krylovVecP_eq] at this
  exact this.trans key

/-- **C82.**  The rate of convergence of MINRES for a system with a solution: if the eigenvalues of the symmetric matrix other than zero are between `lo` and
`hi`, the residual after `k` passes is at most `2 ((√hi - √lo) / (√hi + √lo)) ^ k` times the first; if they are so up to their sign,
`2 ((hi - lo) / (hi + lo)) ^ (k / 2)` times. -/
theorem C82_rate (S : Minres ℝ) (n : Nat) (a : Int → Int → ℝ) (hA : S.A.IsMat n a) (sa : SymmOn n a)
    (hdot : S.dot = Vec.inner) (hs : IsSqrt S.sqrt) (b x : List ℝ) (hb : b.length = n) (hx : x.length = n) (w : MinresState ℝ)
    (h0 : w.w0.length = n) (h1 : w.w1.length = n) (h2 : w.v0.length = n) (hcons : Consistent n a b) (N : Int) (st : MinresState ℝ)
    (h : S.mult b x w = .ok (N, st)) (k : Nat) (hk : (k : Int) < st.applied) (lo hi : ℝ) (hlo : 0 < lo) (hlh : lo ≤ hi) :
    ((∀ (t : ℝ) (v : Int → ℝ), ¬ ZeroOn n v → (∀ i : Int, 0 ≤ i → i < n → matVec n a v i = t * v i) → t ≠ 0 → lo ≤ t ∧ t ≤ hi) →
      √(dotFn n (residFn n a b st.x) (residFn n a b st.x))
        ≤ 2 * ((√hi - √lo) / (√hi + √lo)) ^ k * √(dotFn n (residFn n a b x) (residFn n a b x))) ∧
    ((∀ (t : ℝ) (v : Int → ℝ), ¬ ZeroOn n v → (∀ i : Int, 0 ≤ i → i < n → matVec n a v i = t * v i) → t ≠ 0 → lo ≤ |t| ∧ |t| ≤ hi) →
      √(dotFn n (residFn n a b st.x) (residFn n a b st.x))
        ≤ 2 * ((hi - lo) / (hi + lo)) ^ (k / 2) * √(dotFn n (residFn n a b x) (residFn n a b x))) := by
  have hne : ∀ (t : ℝ) (v : Int → ℝ), (∀ i : Int, 0 ≤ i → i < n → matVec n a v i = t * v i) → dotFn n v (residFn n a b x) ≠ 0 → t ≠ 0 := by
    rintro t v e hv rfl
    obtain ⟨f, hf⟩ := hcons
    apply hv
    have hr : ∀ i, 0 ≤ i → i < (n : Int) → residFn n a b x i = matVec n a (f - vecAt x) i := by
      intro i i0 i1
      rw [(matVec_isLin (n : Int) a).sub]
      simp only [Pi.sub_apply, hf i i0 i1]
      rfl
    rw [dotFn_congr _ (fun _ _ _ => rfl) hr, ← dotFn_selfAdj sa, dotFn_zero_left (fun i i0 i1 => by rw [e i i0 i1, zero_mul])]
  have fin : ∀ q : ℝ, 0 ≤ q → dotFn n (residFn n a b st.x) (residFn n a b st.x) ≤ (2 * q) ^ 2 * dotFn n (residFn n a b x) (residFn n a b x) →
      √(dotFn n (residFn n a b st.x) (residFn n a b st.x)) ≤ 2 * q * √(dotFn n (residFn n a b x) (residFn n a b x)) := by
    intro q hq hle
    calc _ ≤ √((2 * q) ^ 2 * dotFn n (residFn n a b x) (residFn n a b x)) := Real.sqrt_le_sqrt hle
      _ = _ := by rw [Real.sqrt_mul (sq_nonneg _), Real.sqrt_sq (by linarith)]
  constructor
  · intro hev
    obtain ⟨p, p1, p2, p3⟩ := cheb_small k lo hi hlo hlh
    have hq : 0 ≤ (√hi - √lo) / (√hi + √lo) := by
      have := Real.sqrt_le_sqrt hlh
      have := Real.sqrt_nonneg lo
      exact div_nonneg (by linarith) (by linarith)
    exact fin _ (pow_nonneg hq k) (C82_spectral S n a hA sa hdot hs b x hb hx w h0 h1 h2 N st h p (by omega) p2 _ (fun t v hv e hr =>
      p3 t (hev t v hv e (hne t v e hr)).1 (hev t v hv e (hne t v e hr)).2))
  · intro hev
    have hhi : 0 < hi := lt_of_lt_of_le hlo hlh
    obtain ⟨p, p1, p2, p3⟩ := cheb_small (k / 2) (lo ^ 2) (hi ^ 2) (by positivity) (pow_le_pow_left₀ hlo.le hlh 2)
    rw [Real.sqrt_sq hlo.le, Real.sqrt_sq hhi.le] at p3
    have hq : 0 ≤ (hi - lo) / (hi + lo) := div_nonneg (by linarith) (by linarith)
    refine fin _ (pow_nonneg hq _) (C82_spectral S n a hA sa hdot hs b x hb hx w h0 h1 h2 N st h (p.comp (X ^ 2)) ?_ (by simpa [eval_comp] using p2) _
      (fun t v hv e hr => ?_))
    · have : (p.comp (X ^ 2)).natDegree ≤ p.natDegree * 2 := by
        refine natDegree_comp_le.trans ?_
        rw [natDegree_X_pow]
      omega
    · obtain ⟨t0, t1⟩ := hev t v hv e (hne t v e hr)
      rw [eval_comp, eval_pow, eval_X]
      refine p3 _ ?_ ?_
      · rw [← sq_abs t]
        exact pow_le_pow_left₀ hlo.le t0 2
      · rw [← sq_abs t]
        exact pow_le_pow_left₀ (abs_nonneg t) t1 2

/-- **C83.**  The rate of convergence of PMINRES: the same with the eigenvalues of the preconditioned matrix and the norm of the preconditioner. -/
theorem C83_rate (S : Minres ℝ) (M : Op ℝ) (n : Nat) (a m : Int → Int → ℝ) (hA : S.A.IsMat n a)
    (hM : M.IsMat n m) (sa : SymmOn n a) (sm : SymmOn n m) (pm : PosDefOn n m)
    (hdot : S.dot = Vec.inner) (hs : IsSqrt S.sqrt) (b x : List ℝ) (hb : b.length = n) (hx : x.length = n) (w : PminresState ℝ)
    (h0 : w.w0.length = n) (h1 : w.w1.length = n) (h2 : w.v0.length = n) (hcons : Consistent n a b) (N : Int) (st : PminresState ℝ)
    (h : Pminres.mult S M b x w = .ok (N, st)) (k : Nat) (hk : (k : Int) < st.applied) (lo hi : ℝ) (hlo : 0 < lo) (hlh : lo ≤ hi) :
    ((∀ (t : ℝ) (v : Int → ℝ), ¬ ZeroOn n v → (∀ i : Int, 0 ≤ i → i < n → matVec n a (matVec n m v) i = t * v i) → t ≠ 0 → lo ≤ t ∧ t ≤ hi) →
      √(dotFn n (residFn n a b st.x) (matVec n m (residFn n a b st.x)))
        ≤ 2 * ((√hi - √lo) / (√hi + √lo)) ^ k * √(dotFn n (residFn n a b x) (matVec n m (residFn n a b x)))) ∧
    ((∀ (t : ℝ) (v : Int → ℝ), ¬ ZeroOn n v → (∀ i : Int, 0 ≤ i → i < n → matVec n a (matVec n m v) i = t * v i) → t ≠ 0 → lo ≤ |t| ∧ |t| ≤ hi) →
      √(dotFn n (residFn n a b st.x) (matVec n m (residFn n a b st.x)))
        ≤ 2 * ((hi - lo) / (hi + lo)) ^ (k / 2) * √(dotFn n (residFn n a b x) (matVec n m (residFn n a b x)))) := by
  have hne : ∀ (t : ℝ) (v : Int → ℝ), (∀ i : Int, 0 ≤ i → i < n → matVec n a (matVec n m v) i = t * v i) →
      dotFn n v (matVec n m (residFn n a b x)) ≠ 0 → t ≠ 0 := by
    rintro t v e hv rfl
    obtain ⟨f, hf⟩ := hcons
    apply hv
    have hr : ∀ i, 0 ≤ i → i < (n : Int) → residFn n a b x i = matVec n a (f - vecAt x) i := by
      intro i i0 i1
      rw [(matVec_isLin (n : Int) a).sub]
      simp only [Pi.sub_apply, hf i i0 i1]
      rfl
    rw [← dotFn_selfAdj sm, dotFn_congr _ (fun _ _ _ => rfl) hr, ← dotFn_selfAdj sa, dotFn_zero_left (fun i i0 i1 => by rw [e i i0 i1, zero_mul])]
  have fin : ∀ q : ℝ, 0 ≤ q → dotFn n (residFn n a b st.x) (matVec n m (residFn n a b st.x))
        ≤ (2 * q) ^ 2 * dotFn n (residFn n a b x) (matVec n m (residFn n a b x)) →
      √(dotFn n (residFn n a b st.x) (matVec n m (residFn n a b st.x))) ≤ 2 * q * √(dotFn n (residFn n a b x) (matVec n m (residFn n a b x))) := by
    intro q hq hle
    calc _ ≤ √((2 * q) ^ 2 * dotFn n (residFn n a b x) (matVec n m (residFn n a b x))) := Real.sqrt_le_sqrt hle
      _ = _ := by rw [Real.sqrt_mul (sq_nonneg _), Real.sqrt_sq (by linarith)]
  have spec := C83_spectral S M n a m hA hM sa sm pm hdot hs b x hb hx w h0 h1 h2 N st h
  constructor
  · intro hev
    obtain ⟨p, p1, p2, p3⟩ := cheb_small k lo hi hlo hlh
    have hq : 0 ≤ (√hi - √lo) / (√hi + √lo) := by
      have := Real.sqrt_le_sqrt hlh
      have := Real.sqrt_nonneg lo
      exact div_nonneg (by linarith) (by linarith)
    exact fin _ (pow_nonneg hq k) (spec p (by omega) p2 _ (fun t v hv e hr =>
      p3 t (hev t v hv e (hne t v e hr)).1 (hev t v hv e (hne t v e hr)).2))
  · intro hev
    have hhi : 0 < hi := lt_of_lt_of_le hlo hlh
    obtain ⟨p, p1, p2, p3⟩ := cheb_small (k / 2) (lo ^ 2) (hi ^ 2) (by positivity) (pow_le_pow_left₀ hlo.le hlh 2)
    rw [Real.sqrt_sq hlo.le, Real.sqrt_sq hhi.le] at p3
    have hq : 0 ≤ (hi - lo) / (hi + lo) := div_nonneg (by linarith) (by linarith)
    refine fin _ (pow_nonneg hq _) (spec (p.comp (X ^ 2)) ?_ (by simpa [eval_comp] using p2) _ (fun t v hv e hr => ?_))
    · have : (p.comp (X ^ 2)).natDegree ≤ p.natDegree * 2 := by
        refine natDegree_comp_le.trans ?_
        rw [natDegree_X_pow]
      omega
    · obtain ⟨t0, t1⟩ := hev t v hv e (hne t v e hr)
      rw [eval_comp, eval_pow, eval_X]
      refine p3 _ ?_ ?_
      · rw [← sq_abs t]
        exact pow_le_pow_left₀ hlo.le t0 2
      · rw [← sq_abs t]
        exact pow_le_pow_left₀ (abs_nonneg t) t1 2

/-- The matrix `[[0, 1], [1, 0]]`, with the eigenvalues 1 and -1: two passes bring MINRES to the solution from anywhere. -/
example (S : Minres ℝ) (hA : S.A.IsMat ((2 : Nat) : Int) (fun i j => if i + j = 1 then 1 else 0)) (hdot : S.dot = Vec.inner) (hs : IsSqrt S.sqrt) (b x : List ℝ)
    (hb : b.length = 2) (hx : x.length = 2) (w : MinresState ℝ)
    (h0 : w.w0.length = 2) (h1 : w.w1.length = 2) (h2 : w.v0.length = 2) (N : Int) (st : MinresState ℝ)
    (h : S.mult b x w = .ok (N, st)) (hk : 2 < st.applied) :
    dotFn ((2 : Nat) : Int) (residFn ((2 : Nat) : Int) (fun i j => if i + j = 1 then 1 else 0) b st.x)
      (residFn ((2 : Nat) : Int) (fun i j => if i + j = 1 then 1 else 0) b st.x) = 0 := by
  have e : Finset.Ico (0 : Int) ((2 : Nat) : Int) = {0, 1} := by decide
  have hmv : ∀ v : Int → ℝ, matVec ((2 : Nat) : Int) (fun i j => if i + j = 1 then (1 : ℝ) else 0) v 0 = v 1 ∧
      matVec ((2 : Nat) : Int) (fun i j => if i + j = 1 then (1 : ℝ) else 0) v 1 = v 0 := by
    intro v
    simp [matVec]
  have key := (C82_rate S 2 _ hA (by intro i j _ _ _ _; simp only [add_comm]) hdot hs b x hb hx w h0 h1 h2
    ⟨fun i => vecAt b (1 - i), fun i i0 i1 => by
      obtain rfl | rfl : i = 0 ∨ i = 1 := by omega
      · rw [(hmv _).1]; rfl
      · rw [(hmv _).2]; rfl⟩ N st h 2 hk 1 1 one_pos le_rfl).2 (fun t v hv hev _ => by
        have e0 := hev 0 (by decide) (by decide)
        have e1 := hev 1 (by decide) (by decide)
        rw [(hmv v).1] at e0
        rw [(hmv v).2] at e1
        have ht : t * t = 1 := by
          by_contra hne
          apply hv
          have z0 : (t * t - 1) * v 0 = 0 := by rw [e0] at e1; linear_combination -e1
          have z1 : v 0 = 0 := (mul_eq_zero.mp z0).resolve_left (fun hz => hne (by linarith))
          intro i i0 i1
          obtain rfl | rfl : i = 0 ∨ i = 1 := by omega
          · exact z1
          · rw [e0, z1, mul_zero]
        have : |t| = 1 := by
          have h1 := abs_mul_abs_self t
          nlinarith [abs_nonneg t]
        rw [this]
        exact ⟨le_rfl, le_rfl⟩)
  rw [show ((1 : ℝ) - 1) / (1 + 1) = 0 by norm_num] at key
  simp only [Nat.reduceDiv, pow_one, mul_zero, zero_mul] at key
  have := Real.sqrt_eq_zero'.mp (le_antisymm key (Real.sqrt_nonneg _))
  refine le_antisymm this ?_
  unfold dotFn
  exact Finset.sum_nonneg (fun i _ => mul_self_nonneg _)

end Linalg
