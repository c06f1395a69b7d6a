import Verif.Proof.PowerIter
import Mathlib.Algebra.Order.Archimedean.Basic

/-!
# Power iteration (C94)
-/

namespace Linalg
open Cpp

variable {K : Type} [Field K] [LinearOrder K] [IsStrictOrderedRing K]

namespace Example

omit [IsStrictOrderedRing K] in
theorem vec_eq {x : List K} {n : Nat} (hx : x.length = n) : x = vecFn n (vecAt x) := by
  subst hx
  have h : VecIs x x.length (vecAt x) := ⟨rfl, fun i h0 h1 => by
    obtain ⟨k, rfl⟩ := Int.eq_ofNat_of_zero_le h0
    rw [rd_nat (by omega), vecAt_nat _ _ (by omega)]⟩
  exact h.eq_vecFn

end Example

/-- **C94.**  From a start that is not zero, `PowerIterate` returns the Rayleigh quotient of `a ^ j` times the start, where `j` is the first
number whose quotient has settled, or else that of the last pass; it fails an assertion exactly when a product becomes zero before. -/
theorem C94_result {sqrt : K → K} (hs : IsSqrt sqrt) (A : Op K) (n : Nat) (a : Int → Int → K) (hA : A.IsMat n a) (x : List K)
    (hx : x.length = n) (h0 : ¬ ZeroOn n (vecAt x)) (N : Nat) (hN : 0 < N) (tol : K) :
    (∃ j < N, (∀ i ≤ j + 1, ¬ ZeroOn n (matPow n a i (vecAt x))) ∧ (∀ i < j, ¬ PowerStops n a (vecAt x) tol i) ∧
      (j + 1 = N ∨ PowerStops n a (vecAt x) tol j) ∧
      Example.powerIterate sqrt A x N tol = .ok (rayleigh n a (matPow n a j (vecAt x)))) ∨
    (∃ e < N, (∀ i ≤ e, ¬ ZeroOn n (matPow n a i (vecAt x))) ∧ ZeroOn n (matPow n a (e + 1) (vecAt x)) ∧
      (∀ i < e, ¬ PowerStops n a (vecAt x) tol i) ∧ Example.powerIterate sqrt A x N tol = .error .assertFail) := by
  classical
  obtain ⟨c, y, hc, hp⟩ := (Example.powerStart hs hA (vecAt x) N tol).2 h0
  rw [← Example.vec_eq hx, Int.toNat_natCast] at hp
  have hex : ∃ j, j + 1 = N ∨ PowerStops n a (vecAt x) tol j := ⟨N - 1, Or.inl (by omega)⟩
  obtain ⟨j, hj, hjm⟩ : ∃ j, (j + 1 = N ∨ PowerStops n a (vecAt x) tol j) ∧ ∀ i < j, ¬ (i + 1 = N ∨ PowerStops n a (vecAt x) tol i) :=
    ⟨Nat.find hex, Nat.find_spec hex, fun i hi => Nat.find_min hex hi⟩
  have hjN : j < N := by
    by_contra hc
    exact hjm (N - 1) (by omega) (Or.inl (by omega))
  have hst : ∀ i < j, ¬ PowerStops n a (vecAt x) tol i := fun i hi h => hjm i hi (Or.inr h)
  by_cases hz : ∀ i ≤ j + 1, ¬ ZeroOn n (matPow n a i (vecAt x))
  · left
    refine ⟨j, hjN, hz, hst, hj, ?_⟩
    rw [hp]
    exact Example.powerLoop_ok hs hA (vecAt x) tol j hz hst N 0 c y 0 hc (Nat.zero_le _) (by omega) (hj.imp (by omega) id)
  · right
    have hz' : ∃ i, ZeroOn n (matPow n a i (vecAt x)) := by
      push Not at hz
      obtain ⟨i, _, h⟩ := hz
      exact ⟨i, h⟩
    have e0 : Nat.find hz' ≠ 0 := by
      intro h
      have := Nat.find_spec hz'
      rw [h] at this
      exact h0 this
    have e1 : Nat.find hz' ≤ j + 1 := by
      push Not at hz
      obtain ⟨i, hi, h⟩ := hz
      exact (Nat.find_min' hz' h).trans hi
    have ez : ∀ i ≤ Nat.find hz' - 1, ¬ ZeroOn n (matPow n a i (vecAt x)) := fun i hi => Nat.find_min hz' (by omega)
    have ee : ZeroOn n (matPow n a (Nat.find hz' - 1 + 1) (vecAt x)) := by
      rw [Nat.sub_add_cancel (by omega)]
      exact Nat.find_spec hz'
    refine ⟨Nat.find hz' - 1, by omega, ez, ee, fun i hi => hst i (by omega), ?_⟩
    rw [hp]
    exact Example.powerLoop_fails hs hA (vecAt x) tol _ ez ee (fun i hi => hst i (by omega)) N 0 c y 0 hc (Nat.zero_le _) (by omega)

/-- **C94.**  A start that is zero, in particular that of a matrix without rows, fails an assertion; without a pass the result is 0. -/
theorem C94_start {sqrt : K → K} (hs : IsSqrt sqrt) (A : Op K) (n : Nat) (a : Int → Int → K) (hA : A.IsMat n a) (x : List K)
    (hx : x.length = n) (N : Int) (tol : K) :
    (ZeroOn n (vecAt x) → Example.powerIterate sqrt A x N tol = .error .assertFail) ∧
    (¬ ZeroOn n (vecAt x) → N ≤ 0 → Example.powerIterate sqrt A x N tol = .ok 0) := by
  have h := Example.powerStart hs hA (vecAt x) N tol
  rw [← Example.vec_eq hx] at h
  refine ⟨h.1, fun h0 hN => ?_⟩
  obtain ⟨c, y, _, e⟩ := h.2 h0
  rw [e, show N.toNat = 0 by omega]
  rfl

/-- **C94.**  The result lies between any two bounds of the quadratic form of the matrix on unit vectors. -/
theorem C94_bounds {sqrt : K → K} (hs : IsSqrt sqrt) (A : Op K) (n : Nat) (a : Int → Int → K) (hA : A.IsMat n a) (x : List K)
    (hx : x.length = n) (N : Nat) (hN : 0 < N) (tol r : K) (hr : Example.powerIterate sqrt A x N tol = .ok r) (lo hi : K)
    (hlo : ∀ g, lo * dotFn n g g ≤ dotFn n g (matVec n a g)) (hhi : ∀ g, dotFn n g (matVec n a g) ≤ hi * dotFn n g g) : lo ≤ r ∧ r ≤ hi := by
  by_cases h0 : ZeroOn n (vecAt x)
  · rw [(C94_start hs A n a hA x hx N tol).1 h0] at hr
    cases hr
  rcases C94_result hs A n a hA x hx h0 N hN tol with ⟨j, _, hz, _, _, e⟩ | ⟨j, _, _, _, _, e⟩
  · rw [e] at hr
    cases hr
    have hp := dotFn_self_pos (hz j (by omega))
    exact ⟨(le_div_iff₀ hp).mpr (hlo _), (div_le_iff₀ hp).mpr (hhi _)⟩
  · rw [e] at hr
    cases hr

/-- **C94.**  For a positive definite matrix and a start that is not zero there is always a result. -/
theorem C94_posdef {sqrt : K → K} (hs : IsSqrt sqrt) (A : Op K) (n : Nat) (a : Int → Int → K) (hA : A.IsMat n a) (pa : PosDefOn n a) (x : List K)
    (hx : x.length = n) (h0 : ¬ ZeroOn n (vecAt x)) (N : Nat) (hN : 0 < N) (tol : K) :
    ∃ r, 0 < r ∧ Example.powerIterate sqrt A x N tol = .ok r := by
  rcases C94_result hs A n a hA x hx h0 N hN tol with ⟨j, _, hz, _, _, e⟩ | ⟨j, _, hz, h, _, e⟩
  · exact ⟨_, div_pos (pa _ (hz j (by omega))) (dotFn_self_pos (hz j (by omega))), e⟩
  · have := pa _ (hz j le_rfl)
    rw [dotFn_symm] at this
    rw [show matVec n a (matPow n a j (vecAt x)) = matPow n a (j + 1) (vecAt x) from rfl, dotFn_zero_left h] at this
    exact absurd this (lt_irrefl _)

/-- **C94.**  Started at an eigenvector of an eigenvalue that is not zero, it returns the eigenvalue. -/
theorem C94_eigenvector {sqrt : K → K} (hs : IsSqrt sqrt) (A : Op K) (n : Nat) (a : Int → Int → K) (hA : A.IsMat n a) (x : List K)
    (hx : x.length = n) (h0 : ¬ ZeroOn n (vecAt x)) (lam : K) (hl : lam ≠ 0) (he : ∀ i : Int, 0 ≤ i → i < n → matVec n a (vecAt x) i = lam * vecAt x i)
    (N : Nat) (hN : 0 < N) (tol : K) : Example.powerIterate sqrt A x N tol = .ok lam := by
  have hpow : ∀ k i, 0 ≤ i → i < (n : Int) → matPow n a k (vecAt x) i = (lam ^ k • vecAt x) i := by
    intro k
    induction k with
    | zero => intro i _ _; simp [matPow]
    | succ k ih =>
      intro i i0 i1
      show matVec n a (matPow n a k (vecAt x)) i = _
      rw [matVec_congr n a ih, matVec_smul]
      simp only [Pi.smul_apply, smul_eq_mul]
      rw [he i i0 i1]
      ring
  have hnz : ∀ k, ¬ ZeroOn n (matPow n a k (vecAt x)) := by
    intro k h
    apply h0
    intro i i0 i1
    have := h i i0 i1
    rw [hpow k i i0 i1] at this
    simp only [Pi.smul_apply, smul_eq_mul] at this
    exact (mul_eq_zero.mp this).resolve_left (pow_ne_zero k hl)
  have hray : ∀ k, rayleigh n a (matPow n a k (vecAt x)) = lam := by
    intro k
    unfold rayleigh
    rw [div_eq_iff (dotFn_self_pos (hnz k)).ne', ← smul_eq_mul, smul_eq_mul, ← (dotFn_bilin n).smul_left, dotFn_symm]
    apply dotFn_congr
    · intro i i0 i1
      show matPow n a (k + 1) (vecAt x) i = _
      rw [hpow (k + 1) i i0 i1]
      simp only [Pi.smul_apply, smul_eq_mul]
      rw [hpow k i i0 i1]
      simp only [Pi.smul_apply, smul_eq_mul]
      ring
    · intro i _ _; rfl
  rcases C94_result hs A n a hA x hx h0 N hN tol with ⟨j, _, _, _, _, e⟩ | ⟨j, _, _, h, _, _⟩
  · rw [e, hray]
  · exact absurd h (hnz _)

namespace Example

/-- Consecutive moments. -/
theorem moments {n : Nat} {a : Int → Int → K} (sa : SymmOn n a) (pa : PosSemiOn n a) (f : Int → K) (k : Nat) :
    dotFn n (matPow n a k f) (matPow n a (k + 1) f) * dotFn n (matPow n a k f) (matPow n a (k + 1) f)
      ≤ dotFn n (matPow n a k f) (matPow n a k f) * dotFn n (matPow n a (k + 1) f) (matPow n a (k + 1) f) ∧
    dotFn n (matPow n a (k + 1) f) (matPow n a (k + 1) f) * dotFn n (matPow n a (k + 1) f) (matPow n a (k + 1) f)
      ≤ dotFn n (matPow n a k f) (matPow n a (k + 1) f) * dotFn n (matPow n a (k + 1) f) (matPow n a (k + 2) f) := by
  constructor
  · exact cauchy (dotFn_bilin n) (fun u => Finset.sum_nonneg (fun _ _ => mul_self_nonneg _)) _ _
  · have := cauchy (semi_bilin sa) pa (matPow n a k f) (matPow n a (k + 1) f)
    have e : dotFn n (matPow n a k f) (matVec n a (matPow n a (k + 1) f)) = dotFn n (matPow n a (k + 1) f) (matPow n a (k + 1) f) := by
      rw [← dotFn_selfAdj sa]
      rfl
    rw [e] at this
    exact this

/-- The quotients do not decrease. -/
theorem ray_mono {n : Nat} {a : Int → Int → K} (sa : SymmOn n a) (pa : PosSemiOn n a) (f : Int → K) (k : Nat)
    (h0 : ¬ ZeroOn n (matPow n a k f)) (h1 : ¬ ZeroOn n (matPow n a (k + 1) f)) :
    rayleigh n a (matPow n a k f) ≤ rayleigh n a (matPow n a (k + 1) f) := by
  obtain ⟨m1, m2⟩ := moments sa pa f k
  have p0 := dotFn_self_pos h0
  have p1 := dotFn_self_pos h1
  have q0 : 0 ≤ dotFn n (matPow n a k f) (matPow n a (k + 1) f) := pa _
  have q1 : 0 ≤ dotFn n (matPow n a (k + 1) f) (matPow n a (k + 2) f) := pa _
  unfold rayleigh
  rw [div_le_div_iff₀ p0 p1]
  change dotFn n (matPow n a k f) (matPow n a (k + 1) f) * _ ≤ dotFn n (matPow n a (k + 1) f) (matPow n a (k + 2) f) * _
  generalize dotFn n (matPow n a k f) (matPow n a (k + 1) f) = o0 at *
  generalize dotFn n (matPow n a (k + 1) f) (matPow n a (k + 2) f) = o1 at *
  generalize dotFn n (matPow n a k f) (matPow n a k f) = e0 at *
  generalize dotFn n (matPow n a (k + 1) f) (matPow n a (k + 1) f) = e1 at *
  rcases q0.lt_or_eq with q0 | q0
  · have h : (o0 * e1) * (o0 * e1) ≤ (o0 * e1) * (o1 * e0) := by
      calc (o0 * e1) * (o0 * e1) = (o0 * o0) * (e1 * e1) := by ring
        _ ≤ (e0 * e1) * (o0 * o1) := mul_le_mul m1 m2 (mul_self_nonneg _) (mul_pos p0 p1).le
        _ = (o0 * e1) * (o1 * e0) := by ring
    exact le_of_mul_le_mul_left h (mul_pos q0 p1)
  · rw [← q0, zero_mul]
    exact mul_nonneg q1 p0.le

theorem ray_mono' {n : Nat} {a : Int → Int → K} (sa : SymmOn n a) (pa : PosSemiOn n a) (f : Int → K) (k m : Nat)
    (h : ∀ i ≤ k + m, ¬ ZeroOn n (matPow n a i f)) : rayleigh n a (matPow n a k f) ≤ rayleigh n a (matPow n a (k + m) f) := by
  induction m with
  | zero => exact le_rfl
  | succ m ih => exact (ih (fun i hi => h i (by omega))).trans (ray_mono sa pa f (k + m) (h _ (by omega)) (h _ (by omega)))

end Example

/-- **C94.**  For a symmetric matrix with a form that is never negative, more passes never give a smaller result. -/
theorem C94_monotone {sqrt : K → K} (hs : IsSqrt sqrt) (A : Op K) (n : Nat) (a : Int → Int → K) (hA : A.IsMat n a) (sa : SymmOn n a)
    (pa : PosSemiOn n a) (x : List K) (hx : x.length = n) (N N' : Nat) (hN : N ≤ N') (tol r r' : K)
    (hr : Example.powerIterate sqrt A x N tol = .ok r) (hr' : Example.powerIterate sqrt A x N' tol = .ok r') : r ≤ r' := by
  by_cases h0 : ZeroOn n (vecAt x)
  · rw [(C94_start hs A n a hA x hx N tol).1 h0] at hr
    cases hr
  rcases Nat.eq_zero_or_pos N' with h' | h'
  · obtain rfl : N = N' := by omega
    rw [hr] at hr'
    cases hr'
    exact le_rfl
  rcases C94_result hs A n a hA x hx h0 N' h' tol with ⟨j', j1', hz', hst', hj', e'⟩ | ⟨j, _, _, _, _, e⟩
  swap
  · rw [e] at hr'
    cases hr'
  rw [e'] at hr'
  cases hr'
  rcases Nat.eq_zero_or_pos N with h | h
  · rw [(C94_start hs A n a hA x hx N tol).2 h0 (by omega)] at hr
    cases hr
    exact div_nonneg (pa _) (dotFn_self_pos (hz' j' (by omega))).le
  rcases C94_result hs A n a hA x hx h0 N h tol with ⟨j, j1, hz, hst, hj, e⟩ | ⟨j, _, _, _, _, e⟩
  swap
  · rw [e] at hr
    cases hr
  rw [e] at hr
  cases hr
  have hle : j ≤ j' := by
    by_contra hc
    rcases hj' with h2 | h2
    · omega
    · exact hst j' (by omega) h2
  obtain ⟨m, rfl⟩ := Nat.exists_eq_add_of_le hle
  exact Example.ray_mono' sa pa _ j m (fun i hi => hz' i (by omega))

namespace Example

/-- The quotients of the powers tend to the largest eigenvalue. -/
theorem ray_converges [Archimedean K] {n : Nat} {a : Int → Int → K} (sa : SymmOn n a) (pa : PosSemiOn n a) (lam : K) (hl : 0 < lam)
    (hmax : ∀ g, dotFn n g (matVec n a g) ≤ lam * dotFn n g g) (v : Int → K)
    (hv : ∀ i : Int, 0 ≤ i → i < n → matVec n a v i = lam * v i) (f : Int → K) (hxv : dotFn n f v ≠ 0) (eps : K) (heps : 0 < eps) :
    (∀ k, ¬ ZeroOn n (matPow n a k f)) ∧ ∃ k0 : Nat, ∀ k, k0 ≤ k →
      lam - eps < rayleigh n a (matPow n a k f) ∧ rayleigh n a (matPow n a k f) ≤ lam := by
  have hpv : ∀ k, dotFn n (matPow n a k f) v = lam ^ k * dotFn n f v := by
    intro k
    induction k with
    | zero => simp [matPow]
    | succ k ih =>
      show dotFn n (matVec n a (matPow n a k f)) v = _
      rw [dotFn_selfAdj sa, dotFn_congr n (f' := matPow n a k f) (g' := lam • v) (fun _ _ _ => rfl) (fun i i0 i1 => hv i i0 i1), dotFn_symm,
        (dotFn_bilin n).smul_left, dotFn_symm, ih, pow_succ]
      ring
  have hnz : ∀ k, ¬ ZeroOn n (matPow n a k f) := by
    intro k h
    have := hpv k
    rw [dotFn_zero_left h] at this
    exact mul_ne_zero (pow_ne_zero k hl.ne') hxv this.symm
  have hvv : 0 < dotFn n v v := by
    apply dotFn_self_pos
    intro h
    apply hxv
    rw [dotFn_symm, dotFn_zero_left h]
  have hE : ∀ k, 0 < dotFn n (matPow n a k f) (matPow n a k f) := fun k => dotFn_self_pos (hnz k)
  have hO : ∀ k, 0 < dotFn n (matPow n a k f) (matPow n a (k + 1) f) := by
    intro k
    have h1 := (moments sa pa f k).2
    have h2 := mul_pos (hE (k + 1)) (hE (k + 1))
    rcases (show (0 : K) ≤ dotFn n (matPow n a k f) (matPow n a (k + 1) f) from pa _).lt_or_eq with h | h
    · exact h
    · rw [← h, zero_mul] at h1
      exact absurd h1 (not_le.mpr h2)
  -- some quotient is close
  have hex : ∃ k, lam - eps < rayleigh n a (matPow n a k f) := by
    by_contra hc
    push Not at hc
    set L := lam - eps with hL
    have c1 : ∀ k, dotFn n (matPow n a k f) (matPow n a (k + 1) f) ≤ L * dotFn n (matPow n a k f) (matPow n a k f) :=
      fun k => (div_le_iff₀ (hE k)).mp (hc k)
    have c2 : ∀ k, dotFn n (matPow n a (k + 1) f) (matPow n a (k + 1) f) ≤ L * dotFn n (matPow n a k f) (matPow n a (k + 1) f) := by
      intro k
      have h1 := (moments sa pa f k).2
      have h2 := c1 (k + 1)
      have h3 : dotFn n (matPow n a (k + 1) f) (matPow n a (k + 1) f) * dotFn n (matPow n a (k + 1) f) (matPow n a (k + 1) f)
          ≤ (L * dotFn n (matPow n a k f) (matPow n a (k + 1) f)) * dotFn n (matPow n a (k + 1) f) (matPow n a (k + 1) f) := by
        refine h1.trans ?_
        calc _ ≤ dotFn n (matPow n a k f) (matPow n a (k + 1) f) * (L * dotFn n (matPow n a (k + 1) f) (matPow n a (k + 1) f)) :=
              mul_le_mul_of_nonneg_left h2 (hO k).le
          _ = _ := by ring
      exact le_of_mul_le_mul_right h3 (hE (k + 1))
    have hLpos : 0 < L := by
      by_contra h
      have := c1 0
      have h2 : L * dotFn n (matPow n a 0 f) (matPow n a 0 f) ≤ 0 := mul_nonpos_of_nonpos_of_nonneg (not_lt.mp h) (hE 0).le
      exact absurd (this.trans h2) (not_le.mpr (hO 0))
    have c3 : ∀ k, dotFn n (matPow n a k f) (matPow n a k f) ≤ (L * L) ^ k * dotFn n f f := by
      intro k
      induction k with
      | zero => simp [matPow]
      | succ k ih =>
        calc _ ≤ L * dotFn n (matPow n a k f) (matPow n a (k + 1) f) := c2 k
          _ ≤ L * (L * dotFn n (matPow n a k f) (matPow n a k f)) := mul_le_mul_of_nonneg_left (c1 k) hLpos.le
          _ ≤ L * (L * ((L * L) ^ k * dotFn n f f)) := mul_le_mul_of_nonneg_left (mul_le_mul_of_nonneg_left ih hLpos.le) hLpos.le
          _ = _ := by ring
    have c4 : ∀ k, (lam * lam) ^ k * (dotFn n f v * dotFn n f v) ≤ (L * L) ^ k * (dotFn n f f * dotFn n v v) := by
      intro k
      have h1 := cauchy (dotFn_bilin n) (fun u => Finset.sum_nonneg (fun _ _ => mul_self_nonneg _)) (matPow n a k f) v
      rw [hpv k] at h1
      calc _ = lam ^ k * dotFn n f v * (lam ^ k * dotFn n f v) := by rw [mul_pow]; ring
        _ ≤ _ := h1
        _ ≤ ((L * L) ^ k * dotFn n f f) * dotFn n v v := mul_le_mul_of_nonneg_right (c3 k) hvv.le
        _ = _ := by ring
    have hq : 1 < (lam * lam) / (L * L) := by
      rw [one_lt_div (mul_pos hLpos hLpos)]
      have : L < lam := by rw [hL]; linarith
      exact mul_lt_mul'' this this hLpos.le hLpos.le
    have hfv : 0 < dotFn n f v * dotFn n f v := mul_self_pos.mpr hxv
    obtain ⟨k, hk⟩ := pow_unbounded_of_one_lt ((dotFn n f f * dotFn n v v) / (dotFn n f v * dotFn n f v)) hq
    rw [div_pow, div_lt_div_iff₀ hfv (pow_pos (mul_pos hLpos hLpos) k)] at hk
    have := c4 k
    linarith
  obtain ⟨k, hk⟩ := hex
  refine ⟨hnz, k, fun j hj => ⟨?_, (div_le_iff₀ (hE j)).mpr (hmax _)⟩⟩
  obtain ⟨m, rfl⟩ := Nat.exists_eq_add_of_le hj
  exact hk.trans_le (ray_mono' sa pa f k m (fun i _ => hnz i))

end Example

/-- **C94.**  For a symmetric matrix with a form that is never negative, whose largest eigenvalue is `lam > 0`, and a start that is not
orthogonal to some eigenvector `v` of it, the result gets as close to `lam` as one wants, if the tolerance never stops the iteration. -/
theorem C94_converges [Archimedean K] {sqrt : K → K} (hs : IsSqrt sqrt) (A : Op K) (n : Nat) (a : Int → Int → K) (hA : A.IsMat n a)
    (sa : SymmOn n a) (pa : PosSemiOn n a) (lam : K) (hl : 0 < lam) (hmax : ∀ g, dotFn n g (matVec n a g) ≤ lam * dotFn n g g)
    (v : Int → K) (hv : ∀ i : Int, 0 ≤ i → i < n → matVec n a v i = lam * v i)
    (x : List K) (hx : x.length = n) (hxv : dotFn n (vecAt x) v ≠ 0) (eps : K) (heps : 0 < eps) :
    ∃ N0 : Nat, ∀ N : Nat, N0 ≤ N → ∃ r, Example.powerIterate sqrt A x N 0 = .ok r ∧ lam - eps < r ∧ r ≤ lam := by
  obtain ⟨hnz, k, hk⟩ := Example.ray_converges sa pa lam hl hmax v hv (vecAt x) hxv eps heps
  refine ⟨k + 1, fun N hN => ?_⟩
  have hns : ∀ i, ¬ PowerStops n a (vecAt x) 0 i := by
    intro i h
    cases i with
    | zero => exact absurd h.2 (by norm_num)
    | succ i =>
      have := h.2
      rw [zero_mul] at this
      exact absurd this (not_lt.mpr (abs_nonneg _))
  have h0 : ¬ ZeroOn n (vecAt x) := hnz 0
  rcases C94_result hs A n a hA x hx h0 N (by omega) 0 with ⟨j, j1, _, _, hj, e⟩ | ⟨j, _, _, h, _, _⟩
  · obtain rfl : j + 1 = N := hj.resolve_right (hns j)
    exact ⟨_, e, hk j (by omega)⟩
  · exact absurd h (hnz _)

end Linalg
