import Verif.Model.PowerIter
import Verif.Spec.PowerIter
import Verif.Spec.Minres
import Verif.Proof.Solvers
import Mathlib.Tactic.FieldSimp
import Mathlib.Tactic.Positivity
import Mathlib.Tactic.Linarith

/-! # Power iteration: the model follows the powers of the matrix -/

namespace Linalg
open Cpp

variable {K : Type}

theorem IsSqrt.pos [Field K] [LinearOrder K] [IsStrictOrderedRing K] {sqrt : K → K} (hs : IsSqrt sqrt) {t : K} (ht : 0 < t) : sqrt t ≠ 0 := by
  intro h
  have := (hs t ht.le).2
  rw [h, mul_zero] at this
  exact ht.ne this

theorem IsSqrt.zero [Field K] [LinearOrder K] [IsStrictOrderedRing K] {sqrt : K → K} (hs : IsSqrt sqrt) : sqrt 0 = 0 :=
  mul_self_eq_zero.mp (hs 0 le_rfl).2

namespace Example

section
variable [Field K] [LinearOrder K] [IsStrictOrderedRing K]

omit [IsStrictOrderedRing K] in
theorem divScalar_vecFn {n : Nat} (f : Int → K) {v : K} (hv : v ≠ 0) :
    (⟨0, ((vecFn n f).length : Int)⟩ : View).divScalar v (vecFn n f) = .ok (vecFn n (fun i => f i / v)) := by
  unfold View.divScalar
  rw [cassert_true hv, ok_bind, length_vecFn]
  apply fillLoop'
  intro i h h0 h1 hh
  dsimp only
  rw [zero_add, rd_vecFn h0 h1, ok_bind, wr_vecFn _ h0 h1, hh]

omit [IsStrictOrderedRing K] in
theorem divScalar_zero (v : View) (m : List K) : v.divScalar 0 m = .error .assertFail := by
  unfold View.divScalar
  rw [cassert_false (by simp)]
  rfl

omit [IsStrictOrderedRing K] in
theorem l2Norm_vecFn (sqrt : K → K) (n : Nat) (f : Int → K) : Vec.l2Norm sqrt (vecFn n f) = .ok (sqrt (dotFn n f f)) := by
  unfold Vec.l2Norm
  rw [Vec.inner_vecFn, ok_bind]

omit [IsStrictOrderedRing K] in
theorem dotFn_smul_smul (n : Int) (c : K) (f g : Int → K) : dotFn n (c • f) (c • g) = c * c * dotFn n f g := by
  simp only [dotFn, Pi.smul_apply, smul_eq_mul, Finset.mul_sum]
  exact Finset.sum_congr rfl (fun j _ => by ring)

/-- One pass, from a multiple of `g`. -/
theorem powerStep_ok {sqrt : K → K} (hs : IsSqrt sqrt) {A : Op K} {n : Nat} {a : Int → Int → K} (hA : A.IsMat n a) (g : Int → K) (y : List K)
    {c : K} (hc : c ≠ 0) (hg : ¬ ZeroOn n g) :
    (¬ ZeroOn n (matVec n a g) → ∃ c' : K, c' ≠ 0 ∧ ∃ y', powerStep sqrt A (vecFn n (c • g)) y
      = .ok (vecFn n (c' • matVec n a g), y', rayleigh n a g)) ∧
    (ZeroOn n (matVec n a g) → powerStep sqrt A (vecFn n (c • g)) y = .error .assertFail) := by
  have hgg := dotFn_self_pos hg
  have hcc : 0 < c * c := mul_self_pos.mpr hc
  have hb : c * c * dotFn n g g ≠ 0 := (mul_pos hcc hgg).ne'
  have key : powerStep sqrt A (vecFn n (c • g)) y = (do
      let x ← (⟨0, ((vecFn n (c • matVec n a g)).length : Int)⟩ : View).divScalar (sqrt (c * c * dotFn n (matVec n a g) (matVec n a g)))
        (vecFn n (c • matVec n a g))
      .ok (x, vecFn n (c • matVec n a g), rayleigh n a g)) := by
    unfold powerStep
    rw [hA.multResize_eq, ok_bind, matVec_smul, Vec.inner_vecFn, ok_bind, Vec.inner_vecFn, ok_bind, dotFn_smul_smul, dotFn_smul_smul]
    unfold fdiv
    rw [if_neg hb, ok_bind, l2Norm_vecFn, ok_bind, dotFn_smul_smul, mul_div_mul_left _ _ hcc.ne', dotFn_symm n (matVec n a g) g]
    rfl
  rw [key]
  constructor
  · intro h
    have hn : sqrt (c * c * dotFn n (matVec n a g) (matVec n a g)) ≠ 0 := hs.pos (mul_pos hcc (dotFn_self_pos h))
    refine ⟨c / sqrt (c * c * dotFn n (matVec n a g) (matVec n a g)), div_ne_zero hc hn, vecFn n (c • matVec n a g), ?_⟩
    rw [divScalar_vecFn _ hn, ok_bind]
    have : (fun i => (c • matVec n a g) i / sqrt (c * c * dotFn n (matVec n a g) (matVec n a g)))
        = (c / sqrt (c * c * dotFn n (matVec n a g) (matVec n a g))) • matVec n a g := by
      funext i
      simp only [Pi.smul_apply, smul_eq_mul]
      ring
    rw [this]
  · intro h
    rw [dotFn_zero_left h, mul_zero, hs.zero, divScalar_zero]
    rfl

/-- The quotient before quotient `k`. -/
def prevRay (n : Int) (a : Int → Int → K) (f : Int → K) : Nat → K
  | 0 => 0
  | k + 1 => rayleigh n a (matPow n a k f)

theorem powerStop_iff (n : Int) (a : Int → Int → K) (f : Int → K) (tol : K) (k : Nat) :
    powerStop tol (rayleigh n a (matPow n a k f)) (prevRay n a f k) = true ↔ PowerStops n a f tol k := by
  unfold powerStop
  rw [decide_eq_true_iff]
  cases k with
  | zero =>
    simp only [prevRay, PowerStops, matPow, sub_zero]
    refine and_congr_right (fun h => ?_)
    rw [div_self (abs_ne_zero.mpr h)]
  | succ k =>
    simp only [prevRay, PowerStops]
    refine and_congr_right (fun h => ?_)
    rw [div_lt_iff₀ (abs_pos.mpr h)]

/-- The loop ends with quotient `j`. -/
theorem powerLoop_ok {sqrt : K → K} (hs : IsSqrt sqrt) {A : Op K} {n : Nat} {a : Int → Int → K} (hA : A.IsMat n a) (f : Int → K) (tol : K)
    (j : Nat) (hz : ∀ i ≤ j + 1, ¬ ZeroOn n (matPow n a i f)) (hst : ∀ i < j, ¬ PowerStops n a f tol i) :
    ∀ (m k : Nat) (c : K) (y : List K) (ray : K), c ≠ 0 → k ≤ j → j < k + m → (j + 1 = k + m ∨ PowerStops n a f tol j) →
      powerLoop sqrt A tol m (vecFn n (c • matPow n a k f)) y ray (prevRay n a f k) = .ok (rayleigh n a (matPow n a j f)) := by
  intro m
  induction m with
  | zero => intro k c y ray _ h h'; omega
  | succ m ih =>
    intro k c y ray hc hk hm hj
    obtain ⟨c', hc', y', e⟩ := (powerStep_ok hs hA (matPow n a k f) y hc (hz k (by omega))).1 (hz (k + 1) (by omega))
    rw [powerLoop, e, ok_bind]
    dsimp only
    rcases Nat.lt_or_ge k j with h | h
    · rw [if_neg (fun h' => hst k h ((powerStop_iff n a f tol k).mp h'))]
      exact ih (k + 1) c' y' (rayleigh n a (matPow n a k f)) hc' (by omega) (by omega) (hj.imp (by omega) id)
    · obtain rfl : k = j := by omega
      rcases hj with hj | hj
      · obtain rfl : m = 0 := by omega
        split <;> rfl
      · rw [if_pos ((powerStop_iff n a f tol k).mpr hj)]

/-- The loop, when the matrix annihilates the power before a quotient has settled. -/
theorem powerLoop_fails {sqrt : K → K} (hs : IsSqrt sqrt) {A : Op K} {n : Nat} {a : Int → Int → K} (hA : A.IsMat n a) (f : Int → K) (tol : K)
    (e : Nat) (hz : ∀ j ≤ e, ¬ ZeroOn n (matPow n a j f)) (he : ZeroOn n (matPow n a (e + 1) f)) (hst : ∀ j < e, ¬ PowerStops n a f tol j) :
    ∀ (m k : Nat) (c : K) (y : List K) (ray : K), c ≠ 0 → k ≤ e → e < k + m →
      powerLoop sqrt A tol m (vecFn n (c • matPow n a k f)) y ray (prevRay n a f k) = .error .assertFail := by
  intro m
  induction m with
  | zero => intro k c y ray _ h h'; omega
  | succ m ih =>
    intro k c y ray hc hk hm
    rcases Nat.lt_or_ge k e with h | h
    · obtain ⟨c', hc', y', e'⟩ := (powerStep_ok hs hA (matPow n a k f) y hc (hz k (by omega))).1 (hz (k + 1) (by omega))
      rw [powerLoop, e', ok_bind]
      dsimp only
      rw [if_neg (fun h' => hst k h ((powerStop_iff n a f tol k).mp h'))]
      exact ih (k + 1) c' y' (rayleigh n a (matPow n a k f)) hc' (by omega) (by omega)
    · obtain rfl : k = e := by omega
      rw [powerLoop, (powerStep_ok hs hA (matPow n a k f) y hc (hz k le_rfl)).2 he]
      rfl

/-- The start: a multiple of the given vector, or a failed assertion. -/
theorem powerStart {sqrt : K → K} (hs : IsSqrt sqrt) {A : Op K} {n : Nat} {a : Int → Int → K} (hA : A.IsMat n a) (f : Int → K) (N : Int) (tol : K) :
    (ZeroOn n f → powerIterate sqrt A (vecFn n f) N tol = .error .assertFail) ∧
    (¬ ZeroOn n f → ∃ (c : K) (y : List K), c ≠ 0 ∧ powerIterate sqrt A (vecFn n f) N tol = powerLoop sqrt A tol N.toNat (vecFn n (c • f)) y 0 0) := by
  have hel : (iota ((vecFn n f).length : Int).toNat).mapM (fun i => rd (vecFn n f) (0 + i)) = .ok (vecFn n f) := by
    rw [length_vecFn, Int.toNat_natCast]
    rw [mapM_ok (iota n) _ f]
    · rw [← vecFn_iota]
    · intro i hi
      have : 0 ≤ i ∧ i < n := by
        simp only [iota, List.mem_map, List.mem_range] at hi
        obtain ⟨k, hk, rfl⟩ := hi
        exact ⟨Int.natCast_nonneg k, Int.ofNat_lt.mpr hk⟩
      rw [zero_add, rd_vecFn this.1 this.2]
  have key : powerIterate sqrt A (vecFn n f) N tol = (do
      let x ← (⟨0, ((vecFn n f).length : Int)⟩ : View).divScalar (sqrt (dotFn n f f)) (vecFn n f)
      powerLoop sqrt A tol N.toNat x (List.replicate A.rows.toNat 0) 0 0) := by
    unfold powerIterate mkVec
    rw [if_pos (by rw [hA.rows_eq]; omega), ok_bind]
    unfold View.normalize
    dsimp only
    rw [hel, ok_bind, l2Norm_vecFn, ok_bind]
  rw [key]
  constructor
  · intro h
    rw [dotFn_zero_left h, hs.zero, divScalar_zero]
    rfl
  · intro h
    have hn := hs.pos (dotFn_self_pos h)
    refine ⟨1 / sqrt (dotFn n f f), List.replicate A.rows.toNat 0, div_ne_zero one_ne_zero hn, ?_⟩
    rw [divScalar_vecFn _ hn, ok_bind]
    have : (fun i => f i / sqrt (dotFn n f f)) = (1 / sqrt (dotFn n f f)) • f := by
      funext i
      simp only [Pi.smul_apply, smul_eq_mul]
      ring
    rw [this]

/-! ## Quadratic forms -/

/-- Cauchy-Schwarz for a symmetric form that is never negative. -/
theorem cauchy {V : Type} [AddCommGroup V] [Module K V] {B : V → V → K} (hB : Cg.Bilin B) (hp : ∀ u, 0 ≤ B u u) (u v : V) :
    B u v * B u v ≤ B u u * B v v := by
  have expand : ∀ s t : K, B (s • u + t • v) (s • u + t • v) = s * s * B u u + 2 * (s * t) * B u v + t * t * B v v := by
    intro s t
    rw [hB.add_left, hB.smul_left, hB.smul_left, hB.symm u, hB.symm v, hB.add_left, hB.add_left, hB.smul_left, hB.smul_left, hB.smul_left,
      hB.smul_left, hB.symm v u]
    ring
  rcases (hp v).lt_or_eq with h | h
  · have h1 := hp (B v v • u + (-B u v) • v)
    rw [expand] at h1
    have h2 : 0 ≤ B v v * (B u u * B v v - B u v * B u v) := by
      calc (0 : K) ≤ _ := h1
        _ = _ := by ring
    have := nonneg_of_mul_nonneg_right h2 h
    linarith
  · rw [← h, mul_zero]
    by_contra hc
    have hne : B u v ≠ 0 := by
      intro h0
      rw [h0, mul_zero] at hc
      exact hc le_rfl
    have h1 := hp ((1 : K) • u + (-(B u u + 1) / (2 * B u v)) • v)
    rw [expand, ← h] at h1
    have : 2 * (1 * (-(B u u + 1) / (2 * B u v))) * B u v = -(B u u + 1) := by
      field_simp
    rw [this] at h1
    linarith

omit [LinearOrder K] [IsStrictOrderedRing K] in
theorem semi_bilin {n : Int} {a : Int → Int → K} (sa : SymmOn n a) : Cg.Bilin (V := Int → K) (fun u v => dotFn n u (matVec n a v)) where
  add_left := by
    intro u v w
    exact (dotFn_bilin n).add_left _ _ _
  smul_left := by
    intro c u w
    exact (dotFn_bilin n).smul_left _ _ _
  symm := by
    intro u v
    rw [← dotFn_selfAdj sa, dotFn_symm]

end
end Example
end Linalg
