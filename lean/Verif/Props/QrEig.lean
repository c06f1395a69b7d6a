import Verif.Model.QrEig
import Verif.Proof.QrEig
import Verif.Props.Examples
import Verif.Props.Laplacian
import Verif.Props.SparseSolve
import Verif.Spec.LapackDense
import Mathlib.LinearAlgebra.Matrix.ToLinearEquiv

/-!
# The QR eigenvalue iteration
-/

namespace Linalg
open Cpp

namespace QrEig
open SparseSolver (sum_fin)
variable {K : Type} [Field K] [LinearOrder K] [IsStrictOrderedRing K]

omit [LinearOrder K] [IsStrictOrderedRing K] in
/-- Independent columns and the determinant. -/
theorem indep_iff (n : Nat) (a : Int → Int → K) :
    IndepCols n n a ↔ (Matrix.of (fun i j : Fin n => a i j)).det ≠ 0 := by
  rw [Ne, ← Matrix.exists_mulVec_eq_zero_iff]
  constructor
  · rintro h ⟨v, hv, e⟩
    apply hv
    have hz := h (fun t => if ht : 0 ≤ t ∧ t < n then v ⟨t.toNat, by omega⟩ else 0) (by
      intro t t0 t1
      have := congrFun e ⟨t.toNat, by omega⟩
      simp only [Matrix.mulVec, dotProduct, Matrix.of_apply, Pi.zero_apply] at this
      unfold matVec
      rw [← sum_fin n (fun j => a t j * (if ht : 0 ≤ j ∧ j < n then v ⟨j.toNat, by omega⟩ else 0)), ← this]
      refine Finset.sum_congr rfl (fun j _ => ?_)
      rw [dif_pos ⟨by omega, by omega⟩, show ((t.toNat : Nat) : Int) = t by omega]
      rfl)
    funext i
    have := hz (i : Int) (by omega) (by omega)
    simp only at this
    rw [dif_pos ⟨by omega, by omega⟩] at this
    exact this
  · intro h c hc
    by_contra hz
    apply h
    refine ⟨fun i => c i, ?_, ?_⟩
    · intro e
      apply hz
      intro t t0 t1
      have := congrFun e ⟨t.toNat, by omega⟩
      simp only [Pi.zero_apply] at this
      rw [← this]
      congr 1
      omega
    · funext i
      have := hc (i : Int) (by omega) (by omega)
      unfold matVec at this
      rw [← sum_fin] at this
      exact this

/-- The state of the loop: square matrices, the first one invertible. -/
structure Good (n : Nat) (s : Dense K × Dense K × Dense K) : Prop where
  wf : s.1.WF
  rows : s.1.rows = n
  cols : s.1.cols = n
  uwf : s.2.1.WF
  urows : s.2.1.rows = n
  ucols : s.2.1.cols = n
  det : (s.1.mat n n).det ≠ 0

/-- What one pass does. -/
def Next (n : Nat) (s s' : Dense K × Dense K × Dense K) : Prop :=
  ∃ Q R : Matrix (Fin n) (Fin n) K, Q.transpose * Q = 1 ∧ (∀ i j, j < i → R i j = 0) ∧ (∀ i, R i i ≠ 0) ∧
    s.1.mat n n = Q * R ∧ s'.1.mat n n = R * Q ∧ s'.2.1.mat n n = s.2.1.mat n n * Q

omit [LinearOrder K] [IsStrictOrderedRing K] in
theorem mat_mul {n : Nat} {A B C : Dense K} (h : C.Is n n (fun i j => ∑ l ∈ Finset.Ico (0 : Int) n, A.entry i l * B.entry l j)) :
    C.mat n n = A.mat n n * B.mat n n := by
  funext i j
  rw [Matrix.mul_apply]
  unfold Dense.mat
  have := h.get_eq (i : Int) (j : Int) (by omega) (by omega) (by omega) (by omega)
  unfold Dense.entry at this ⊢
  rw [this]
  exact (sum_fin n (fun l => A.entry i l * B.entry l j)).symm

theorem step_ok (sqrt : K → K) (hs : ∀ s, 0 ≤ s → sqrt s * sqrt s = s) {n : Nat} (hn : 1 ≤ n) (s : Dense K × Dense K × Dense K)
    (h : Good n s) : ∃ s', Example.qrEigStep sqrt s = .ok s' ∧ Good n s' ∧ Next n s s' := by
  have hi : IndepCols s.1.rows s.1.cols s.1.entry := by
    rw [h.rows, h.cols]
    exact (indep_iff n _).mpr h.det
  obtain ⟨Q, R, e⟩ := (Example.C67_succeeds sqrt hs s.1 h.wf).1 hi
  obtain ⟨hQ, hR, ho, hu, hd, hp⟩ := Example.C67_factor sqrt hs s.1 h.wf Q R e
  rw [h.rows, h.cols] at hQ hp ho
  rw [h.cols] at hR hu hd
  obtain ⟨T, eT, hT⟩ := (C37_mult R Q s.1 hR.wf hQ.wf (by rw [hR.rows_eq]; omega) (by rw [hQ.rows_eq]; omega)).1 (by rw [hR.cols_eq, hQ.rows_eq])
  obtain ⟨U, eU, hU⟩ := (C37_mult s.2.1 Q s.2.2 h.uwf hQ.wf (by rw [h.urows]; omega) (by rw [hQ.rows_eq]; omega)).1 (by rw [h.ucols, hQ.rows_eq])
  rw [hR.rows_eq, hR.cols_eq, hQ.cols_eq] at hT
  rw [h.urows, h.ucols, hQ.cols_eq] at hU
  have mT := mat_mul hT
  have mU := mat_mul hU
  have mA : s.1.mat n n = Q.mat n n * R.mat n n := by
    funext i j
    rw [Matrix.mul_apply]
    unfold Dense.mat
    rw [← hp i j (by omega) (by omega) (by omega) (by omega), ← sum_fin]
  have mQ : (Q.mat n n).transpose * Q.mat n n = 1 := by
    funext i j
    rw [Matrix.mul_apply, Matrix.one_apply]
    have := ho (i : Int) (j : Int) (by omega) (by omega) (by omega) (by omega)
    unfold dotFn at this
    rw [← sum_fin] at this
    simp only [Matrix.transpose_apply, Dense.mat]
    rw [this]
    by_cases hij : i = j
    · rw [if_pos hij, if_pos (by rw [hij])]
    · rw [if_neg hij, if_neg (by intro e; exact hij (Fin.ext (by omega)))]
  refine ⟨(T, U, s.2.1), ?_, ⟨hT.wf, hT.rows_eq, hT.cols_eq, hU.wf, hU.rows_eq, hU.cols_eq, ?_⟩,
    Q.mat n n, R.mat n n, mQ, fun i j hij => hu i j (by omega) (by omega) (by omega), fun i => hd i (by omega) (by omega), mA, mT, mU⟩
  · unfold Example.qrEigStep
    rw [e, ok_bind, eT, ok_bind, eU, ok_bind]
  · have := h.det
    rw [mA, Matrix.det_mul] at this
    rw [mT, Matrix.det_mul, mul_comm]
    exact this

omit [LinearOrder K] [IsStrictOrderedRing K] in
theorem identity_ok (n : Nat) : ∃ U : Dense K, Example.identity (n : Int) = .ok U ∧ U.Is n n (fun i j => if i = j then 1 else 0) := by
  refine ⟨Dense.ofFn n n (fun i j => if i = j ∧ i < n then 1 else 0), ?_,
    (Dense.is_ofFn n n _).congr (fun i j _ h1 _ _ => by simp only [h1, and_true])⟩
  unfold Example.identity
  rw [Dense.zeros_ofFn, ok_bind]
  have e : (Dense.ofFn n n (fun _ _ => (0 : K))) = Dense.ofFn n n (fun i j => if i = j ∧ i < (0 : Int) then 1 else 0) := by
    apply Dense.ofFn_congr
    intro i j h0 _ _ _
    rw [if_neg (by omega)]
  rw [e]
  refine forUp_seq (by omega) (fun k => Dense.ofFn n n (fun i j => if i = j ∧ i < k then (1 : K) else 0)) (fun k k0 k1 => ?_)
  rw [Dense.put_ofFn _ k0 k1 k0 k1]
  congr 1
  apply Dense.ofFn_congr
  intro i j _ _ _ _
  by_cases h : i = k ∧ j = k
  · rw [if_pos h, if_pos (by omega)]
  · rw [if_neg h]; congr 1; apply propext; omega

/-- The whole loop. -/
theorem run_ok (sqrt : K → K) (hs : ∀ s, 0 ≤ s → sqrt s * sqrt s = s) {n : Nat} (hn : 1 ≤ n) (A : Dense K) (hA : A.WF)
    (hr : A.rows = n) (hc : A.cols = n) (hd : (A.mat n n).det ≠ 0) :
    ∃ S : Nat → Dense K × Dense K × Dense K, (∀ N : Nat, Example.qrEig sqrt A N = .ok ((S N).1, (S N).2.1)) ∧
      (∀ N, Good n (S N)) ∧ (∀ N, Next n (S N) (S (N + 1))) ∧ (S 0).1 = A ∧ (S 0).2.1.mat n n = 1 := by
  obtain ⟨U, eU, hU⟩ := identity_ok (K := K) n
  have eB := Dense.zeros_ofFn (α := K) n n
  have h0 : Good n (A, U, Dense.ofFn n n (fun _ _ => (0 : K))) := ⟨hA, hr, hc, hU.wf, hU.rows_eq, hU.cols_eq, hd⟩
  have hstep : ∀ s : {s : Dense K × Dense K × Dense K // Good n s}, ∃ s' : {s : Dense K × Dense K × Dense K // Good n s},
      Example.qrEigStep sqrt s.1 = .ok s'.1 ∧ Next n s.1 s'.1 := by
    rintro ⟨s, h⟩
    obtain ⟨s', e, g, x⟩ := step_ok sqrt hs hn s h
    exact ⟨⟨s', g⟩, e, x⟩
  choose F hF1 hF2 using hstep
  refine ⟨fun N => (F^[N] ⟨_, h0⟩).1, fun N => ?_, fun N => (F^[N] ⟨_, h0⟩).2, fun N => ?_, rfl, ?_⟩
  · unfold Example.qrEig
    rw [hr, eU, ok_bind, eB, ok_bind]
    have := forUp_seq (n := (N : Int)) (by omega) (body := fun _ s => Example.qrEigStep sqrt s) (fun k => (F^[k.toNat] ⟨_, h0⟩).1) (by
      intro k k0 _
      show Example.qrEigStep sqrt (F^[k.toNat] ⟨_, h0⟩).1 = _
      rw [hF1, show (k + 1).toNat = k.toNat + 1 by omega, Function.iterate_succ_apply'])
    simp only [Int.toNat_zero, Function.iterate_zero, id_eq, Int.toNat_natCast] at this
    rw [this, ok_bind]
  · simp only [Function.iterate_succ_apply']
    exact hF2 _
  · funext i j
    have := hU.get_eq (i : Int) (j : Int) (by omega) (by omega) (by omega) (by omega)
    simp only [Function.iterate_zero, id_eq]
    unfold Dense.mat Dense.entry
    rw [this, Matrix.one_apply]
    by_cases hij : i = j
    · simp [hij]
    · simp only [if_neg hij]
      rw [if_neg (by intro e; exact hij (Fin.ext (by omega)))]

/-- The invariant of the loop. -/
theorem run_inv {n : Nat} {A : Dense K} (S : Nat → Dense K × Dense K × Dense K) (h1 : ∀ N, Next n (S N) (S (N + 1))) (h0 : (S 0).1 = A)
    (hU : (S 0).2.1.mat n n = 1) (N : Nat) :
    ((S N).2.1.mat n n).transpose * (S N).2.1.mat n n = 1 ∧ A.mat n n * (S N).2.1.mat n n = (S N).2.1.mat n n * (S N).1.mat n n ∧
      ∃ R : Matrix (Fin n) (Fin n) K, (∀ i j, j < i → R i j = 0) ∧ (∀ i, R i i ≠ 0) ∧ A.mat n n ^ N = (S N).2.1.mat n n * R := by
  induction N with
  | zero =>
    refine ⟨?_, ?_, 1, fun i j h => Matrix.one_apply_ne h.ne', fun i => ?_, ?_⟩
    · rw [hU, Matrix.transpose_one, Matrix.mul_one]
    · rw [hU, h0, Matrix.mul_one, Matrix.one_mul]
    · rw [Matrix.one_apply_eq]; exact one_ne_zero
    · rw [hU, pow_zero, Matrix.mul_one]
  | succ N ih =>
    obtain ⟨i1, i2, P, p1, p2, p3⟩ := ih
    obtain ⟨Q, R, hq, hu, hd, e1, e2, e3⟩ := h1 N
    generalize (S N).2.1.mat n n = U at *
    generalize (S N).1.mat n n = T at *
    generalize (S (N + 1)).2.1.mat n n = U' at *
    generalize (S (N + 1)).1.mat n n = T' at *
    generalize A.mat n n = M at *
    subst e1 e2 e3
    refine ⟨?_, ?_, R * P, fun i j h => ?_, fun i => ?_, ?_⟩
    · rw [Matrix.transpose_mul]
      calc Q.transpose * U.transpose * (U * Q) = Q.transpose * (U.transpose * U) * Q := by simp only [Matrix.mul_assoc]
        _ = 1 := by rw [i1, Matrix.mul_one, hq]
    · rw [← Matrix.mul_assoc, i2]
      simp only [Matrix.mul_assoc]
    · rw [Matrix.mul_apply]
      refine Finset.sum_eq_zero (fun t _ => ?_)
      rcases lt_or_ge t i with h2 | h2
      · rw [hu i t h2, zero_mul]
      · rw [p1 t j (lt_of_lt_of_le h h2), mul_zero]
    · rw [Matrix.mul_apply, Finset.sum_eq_single i]
      · exact mul_ne_zero (hd i) (p2 i)
      · intro t _ ht
        rcases lt_or_gt_of_ne ht with h2 | h2
        · rw [hu i t h2, zero_mul]
        · rw [p1 t i h2, mul_zero]
      · intro h; exact absurd (Finset.mem_univ i) h
    · rw [pow_succ', p3, ← Matrix.mul_assoc, i2]
      simp only [Matrix.mul_assoc]

end QrEig
open QrEig
variable {K : Type} [Field K] [LinearOrder K] [IsStrictOrderedRing K]

/-- **C96.**  For an invertible matrix the iteration never stops early; `U` is orthogonal, `A U = U T`, and the `N`-th power of `A` is `U` times
an upper triangular matrix without zeros on its diagonal. -/
theorem C96_decomposition (sqrt : K → K) (hs : ∀ s, 0 ≤ s → sqrt s * sqrt s = s) {n : Nat} (hn : 1 ≤ n) (A : Dense K) (hA : A.WF)
    (hr : A.rows = n) (hc : A.cols = n) (hd : (A.mat n n).det ≠ 0) (N : Nat) :
    ∃ T U, Example.qrEig sqrt A N = .ok (T, U) ∧ T.Is n n T.entry ∧ U.Is n n U.entry ∧
      (U.mat n n).transpose * U.mat n n = 1 ∧ A.mat n n * U.mat n n = U.mat n n * T.mat n n ∧
      ∃ R : Matrix (Fin n) (Fin n) K, (∀ i j, j < i → R i j = 0) ∧ (∀ i, R i i ≠ 0) ∧ A.mat n n ^ N = U.mat n n * R := by
  obtain ⟨S, s1, s2, s3, s4, s5⟩ := run_ok sqrt hs hn A hA hr hc hd
  have g := s2 N
  have t1 := g.wf.is_entry
  have t2 := g.uwf.is_entry
  rw [g.rows, g.cols] at t1
  rw [g.urows, g.ucols] at t2
  exact ⟨_, _, s1 N, t1, t2, run_inv S s3 s4 s5 N⟩

omit [LinearOrder K] [IsStrictOrderedRing K] in
theorem QrEig.t_eq {n : Nat} {A T U : Matrix (Fin n) (Fin n) K} (h1 : U.transpose * U = 1) (h2 : A * U = U * T) : T = U.transpose * A * U := by
  rw [Matrix.mul_assoc, h2, ← Matrix.mul_assoc, h1, Matrix.one_mul]

/-- **C96.**  A singular matrix is stopped by an assertion in the first pass. -/
theorem C96_singular (sqrt : K → K) (hs : ∀ s, 0 ≤ s → sqrt s * sqrt s = s) {n : Nat} (A : Dense K) (hA : A.WF)
    (hr : A.rows = n) (hc : A.cols = n) (hd : (A.mat n n).det = 0) (N : Nat) (hN : 1 ≤ N) :
    Example.qrEig sqrt A N = .error .assertFail := by
  obtain ⟨U, eU, _⟩ := identity_ok (K := K) n
  have hi : ¬ IndepCols A.rows A.cols A.entry := by
    rw [hr, hc]
    exact fun h => (indep_iff n _).mp h hd
  unfold Example.qrEig
  rw [hr, eU, ok_bind, Dense.zeros_ofFn, ok_bind, forUp_cons (by omega)]
  unfold Example.qrEigStep
  rw [(Example.C67_succeeds sqrt hs A hA).2 hi]
  rfl

/-- **C96.**  A symmetric matrix gives a symmetric `T`. -/
theorem C96_symmetric (sqrt : K → K) (hs : ∀ s, 0 ≤ s → sqrt s * sqrt s = s) {n : Nat} (hn : 1 ≤ n) (A : Dense K) (hA : A.WF)
    (hr : A.rows = n) (hc : A.cols = n) (sa : (A.mat n n).IsSymm) (N : Nat) (T U : Dense K)
    (h : Example.qrEig sqrt A N = .ok (T, U)) : (T.mat n n).IsSymm := by
  by_cases hd : (A.mat n n).det = 0
  · rcases Nat.eq_zero_or_pos N with h0 | h0
    · obtain ⟨I, eI, _⟩ := identity_ok (K := K) n
      unfold Example.qrEig at h
      rw [hr, eI, ok_bind, Dense.zeros_ofFn, ok_bind, forUp_nil (by omega)] at h
      cases h
      exact sa
    · rw [C96_singular sqrt hs A hA hr hc hd N h0] at h
      cases h
  obtain ⟨T', U', e, _, _, o, p, _⟩ := C96_decomposition sqrt hs hn A hA hr hc hd N
  rw [e] at h
  cases h
  rw [t_eq o p]
  unfold Matrix.IsSymm
  rw [Matrix.transpose_mul, Matrix.transpose_mul, Matrix.transpose_transpose, sa.eq, Matrix.mul_assoc]

namespace QrEig

/-- A form bounded below by `mu`. -/
theorem det_ne {n : Nat} {A : Matrix (Fin n) (Fin n) K} {mu : K} (hmu : 0 < mu) (pa : ∀ x, mu * (x ⬝ᵥ x) ≤ x ⬝ᵥ A.mulVec x) : A.det ≠ 0 := by
  intro h
  obtain ⟨v, hv, e⟩ := Matrix.exists_mulVec_eq_zero_iff.mpr h
  have h1 := pa v
  rw [e, dotProduct_zero] at h1
  apply hv
  have h2 : v ⬝ᵥ v ≤ 0 := by
    by_contra hc
    exact absurd h1 (not_le.mpr (mul_pos hmu (not_le.mp hc)))
  have h3 : ∀ i ∈ Finset.univ, v i * v i = 0 :=
    (Finset.sum_eq_zero_iff_of_nonneg (fun i _ => mul_self_nonneg (v i))).mp (le_antisymm h2 (Finset.sum_nonneg (fun i _ => mul_self_nonneg (v i))))
  funext i
  exact mul_self_eq_zero.mp (h3 i (Finset.mem_univ i))

omit [LinearOrder K] [IsStrictOrderedRing K] in
theorem dot_ortho {n : Nat} {U : Matrix (Fin n) (Fin n) K} (h : U.transpose * U = 1) (x y : Fin n → K) :
    U.mulVec x ⬝ᵥ U.mulVec y = x ⬝ᵥ y := by
  rw [Matrix.dotProduct_mulVec, ← Matrix.mulVec_transpose, Matrix.mulVec_mulVec, h, Matrix.one_mulVec]

omit [IsStrictOrderedRing K] in
/-- The form of `T` is bounded like that of `A`. -/
theorem form_t {n : Nat} {A T U : Matrix (Fin n) (Fin n) K} {mu : K} (pa : ∀ x, mu * (x ⬝ᵥ x) ≤ x ⬝ᵥ A.mulVec x)
    (h1 : U.transpose * U = 1) (h2 : A * U = U * T) (x : Fin n → K) : mu * ∑ i, x i ^ 2 ≤ ∑ i, x i * ∑ j, T i j * x j := by
  have e := pa (U.mulVec x)
  rw [dot_ortho h1, Matrix.mulVec_mulVec, h2, ← Matrix.mulVec_mulVec, dot_ortho h1] at e
  simp only [pow_two]
  exact e

omit [LinearOrder K] [IsStrictOrderedRing K] in
/-- The residual of column `j` as an approximate eigenvector. -/
theorem residual {n : Nat} {A T U : Matrix (Fin n) (Fin n) K} (h1 : U.transpose * U = 1) (h2 : A * U = U * T) (j : Fin n) :
    ∑ i, ((A * U) i j - T j j * U i j) ^ 2 = ∑ i, if i = j then 0 else T i j ^ 2 := by
  have e : ∀ i, (A * U) i j - T j j * U i j = U.mulVec (fun t => if t = j then 0 else T t j) i := by
    intro i
    rw [h2, Matrix.mul_apply, Matrix.mulVec, dotProduct, sub_eq_iff_eq_add]
    have h3 : ∀ t, U i t * T t j = (U i t * if t = j then 0 else T t j) + if t = j then T j j * U i j else 0 := by
      intro t
      by_cases h : t = j
      · rw [if_pos h, if_pos h, mul_zero, zero_add, h, mul_comm]
      · rw [if_neg h, if_neg h, add_zero]
    rw [Finset.sum_congr rfl (fun t _ => h3 t), Finset.sum_add_distrib, Finset.sum_ite_eq' Finset.univ j, if_pos (Finset.mem_univ j)]
  have h4 := dot_ortho h1 (fun t => if t = j then 0 else T t j) (fun t => if t = j then 0 else T t j)
  simp only [e]
  unfold dotProduct at h4
  simp only [pow_two]
  rw [h4]
  refine Finset.sum_congr rfl (fun i _ => ?_)
  by_cases h : i = j <;> simp [h]

end QrEig

/-- **C96.**  For a symmetric matrix whose form is at least `mu > 0` on unit vectors, the iteration diagonalises: given any bound, from some number
of passes on the entries of `T` outside the diagonal are below it, and each column of `U` solves the eigenvalue equation for the diagonal
entry of `T` up to the bound. -/
theorem C96_converges [Archimedean K] (sqrt : K → K) (hs : ∀ s, 0 ≤ s → sqrt s * sqrt s = s) {n : Nat} (hn : 1 ≤ n) (A : Dense K) (hA : A.WF)
    (hr : A.rows = n) (hc : A.cols = n) (sa : (A.mat n n).IsSymm) (mu : K) (hmu : 0 < mu)
    (pa : ∀ x, mu * (x ⬝ᵥ x) ≤ x ⬝ᵥ (A.mat n n).mulVec x) (eps : K) (heps : 0 < eps) :
    ∃ N0 : Nat, ∀ N : Nat, N0 ≤ N → ∃ T U, Example.qrEig sqrt A N = .ok (T, U) ∧
      (∀ i j : Fin n, i ≠ j → |T.mat n n i j| < eps) ∧ (U.mat n n).transpose * U.mat n n = 1 ∧
      ∀ j : Fin n, ∑ i, ((A.mat n n * U.mat n n) i j - T.mat n n j j * U.mat n n i j) ^ 2 < eps ^ 2 := by
  obtain ⟨S, s1, s2, s3, s4, s5⟩ := run_ok sqrt hs hn A hA hr hc (det_ne hmu pa)
  have inv := run_inv S s3 s4 s5
  have symm : ∀ N, ((S N).1.mat n n).IsSymm := fun N => C96_symmetric sqrt hs hn A hA hr hc sa N _ _ (s1 N)
  choose Q R q1 q2 _ q4 q5 _ using s3
  have hF : ∀ N, frob ((S N).1.mat n n) = frob (A.mat n n) := by
    intro N
    induction N with
    | zero => rw [s4]
    | succ N ih => rw [← ih]; exact (frob_next (q1 N) (q4 N) (q5 N)).1
  set C : K := (n : K) * n * frob (A.mat n n) + 1 with hC
  have hC0 : 0 < C := by
    have := mul_nonneg (mul_nonneg (Nat.cast_nonneg (α := K) n) (Nat.cast_nonneg (α := K) n)) (frob_nonneg (A.mat n n))
    linarith
  obtain ⟨N0, hN0⟩ := small_steps (fun N => wsum ((S N).1.mat n n)) (fun N => off (R N)) (fun N => wsum_nonneg _) (fun N => off_nonneg _)
    (fun N => wsum_next (q1 N) (q4 N) (q5 N) (symm N) (q2 N)) (mu ^ 2 * eps ^ 2 / C) (by positivity)
  refine ⟨N0, fun N hN => ⟨_, _, s1 N, ?_⟩⟩
  have hoff : off ((S N).1.mat n n) < eps ^ 2 := by
    have h1 := off_step (q1 N) (q4 N) (symm N) (q2 N) hmu (form_t pa (inv N).1 (inv N).2.1)
    have h2 := hN0 N hN
    rw [lt_div_iff₀ hC0] at h2
    rw [hF N] at h1
    have h3 : (n : K) * n * (frob (A.mat n n) * off (R N)) ≤ off (R N) * C := by
      rw [hC]
      have := off_nonneg (R N)
      nlinarith
    exact lt_of_mul_lt_mul_left (h1.trans_lt (h3.trans_lt h2)) (sq_nonneg mu)
  refine ⟨fun i j hij => ?_, (inv N).1, fun j => ?_⟩
  · exact abs_lt_of_sq_lt_sq ((sq_le_off _ hij).trans_lt hoff) heps.le
  · rw [residual (inv N).1 (inv N).2.1]
    refine lt_of_le_of_lt ?_ hoff
    unfold off
    rw [Finset.sum_comm]
    exact Finset.single_le_sum (f := fun j => ∑ i, if i = j then 0 else (S N).1.mat n n i j ^ 2)
      (fun j _ => Finset.sum_nonneg (fun i _ => by split <;> first | exact le_rfl | exact sq_nonneg _)) (Finset.mem_univ j)

namespace QrEig
open SparseSolver (sum_fin)

/-- The first basis vector. -/
def first (t : Int) : K := if t = 0 then 1 else 0

omit [LinearOrder K] [IsStrictOrderedRing K] in
theorem matPow_first (A : Dense K) {n : Nat} (hn : 0 < n) (N : Nat) (i : Fin n) :
    matPow n A.entry N first (i : Int) = (A.mat n n ^ N) i ⟨0, hn⟩ := by
  induction N generalizing i with
  | zero =>
    rw [pow_zero, Matrix.one_apply]
    show (if ((i : Nat) : Int) = 0 then (1 : K) else 0) = _
    congr 1
    apply propext
    rw [Fin.ext_iff]
    show ((i : Nat) : Int) = 0 ↔ (i : Nat) = 0
    omega
  | succ N ih =>
    show matVec n A.entry (matPow n A.entry N first) i = _
    unfold matVec
    rw [← sum_fin n (fun t => A.entry i t * matPow n A.entry N first t), pow_succ', Matrix.mul_apply]
    exact Finset.sum_congr rfl (fun t _ => by rw [ih t]; rfl)

/-- The first entry of `T` is a Rayleigh quotient. -/
theorem first_entry (A : Dense K) {n : Nat} (hn : 0 < n) (N : Nat) {T U R : Matrix (Fin n) (Fin n) K} (h1 : U.transpose * U = 1)
    (h2 : A.mat n n * U = U * T) (hu : ∀ i j, j < i → R i j = 0) (hd : ∀ i, R i i ≠ 0) (hp : A.mat n n ^ N = U * R) :
    ¬ ZeroOn n (matPow n A.entry N first) ∧ rayleigh n A.entry (matPow n A.entry N first) = T ⟨0, hn⟩ ⟨0, hn⟩ := by
  set z : Fin n := ⟨0, hn⟩ with hz
  have e : ∀ i : Fin n, matPow n A.entry N first (i : Int) = U i z * R z z := by
    intro i
    rw [matPow_first A hn, hp, Matrix.mul_apply, Finset.sum_eq_single z]
    · intro t _ ht
      rw [hu t z (lt_of_le_of_ne (Fin.mk_le_of_le_val (Nat.zero_le _)) (Ne.symm ht)), mul_zero]
    · intro h; exact absurd (Finset.mem_univ z) h
  have e2 : ∀ i : Fin n, matVec n A.entry (matPow n A.entry N first) (i : Int) = (U * T) i z * R z z := by
    intro i
    unfold matVec
    rw [← sum_fin n (fun t => A.entry i t * matPow n A.entry N first t), ← h2, Matrix.mul_apply, Finset.sum_mul]
    exact Finset.sum_congr rfl (fun t _ => by rw [e t]; unfold Dense.mat; ring)
  have d1 : dotFn n (matPow n A.entry N first) (matPow n A.entry N first) = R z z * R z z := by
    unfold dotFn
    rw [← sum_fin n (fun t => matPow n A.entry N first t * matPow n A.entry N first t)]
    have h3 := congrFun (congrFun h1 z) z
    rw [Matrix.mul_apply, Matrix.one_apply_eq] at h3
    calc _ = (∑ i, U.transpose z i * U i z) * (R z z * R z z) := by
          rw [Finset.sum_mul]
          exact Finset.sum_congr rfl (fun t _ => by rw [e t, Matrix.transpose_apply]; ring)
      _ = _ := by rw [h3, one_mul]
  have d2 : dotFn n (matPow n A.entry N first) (matVec n A.entry (matPow n A.entry N first)) = T z z * (R z z * R z z) := by
    unfold dotFn
    rw [← sum_fin n (fun t => matPow n A.entry N first t * matVec n A.entry (matPow n A.entry N first) t)]
    have h3 : (U.transpose * (U * T)) z z = T z z := by rw [← Matrix.mul_assoc, h1, Matrix.one_mul]
    rw [Matrix.mul_apply] at h3
    rw [← h3, Finset.sum_mul]
    exact Finset.sum_congr rfl (fun t _ => by rw [e t, e2 t, Matrix.transpose_apply]; ring)
  have hR := mul_ne_zero (hd z) (hd z)
  constructor
  · intro h
    rw [dotFn_zero_left h] at d1
    exact hR d1.symm
  · unfold rayleigh
    rw [d1, d2, mul_div_assoc, div_self hR, mul_one]

end QrEig

/-- **C96.**  For a symmetric matrix with a form that is never negative, the first entry of `T` does not decrease from pass to pass, and it tends to
the largest eigenvalue `lam` if some eigenvector `v` of it does not begin with a zero. -/
theorem C96_largest [Archimedean K] (sqrt : K → K) (hs : ∀ s, 0 ≤ s → sqrt s * sqrt s = s) {n : Nat} (hn : 1 ≤ n) (A : Dense K) (hA : A.WF)
    (hr : A.rows = n) (hc : A.cols = n) (hd : (A.mat n n).det ≠ 0) (sa : SymmOn n A.entry) (pa : PosSemiOn n A.entry) :
    (∀ (N : Nat) (T U T' U' : Dense K), Example.qrEig sqrt A N = .ok (T, U) → Example.qrEig sqrt A ((N + 1 : Nat) : Int) = .ok (T', U') →
      T.entry 0 0 ≤ T'.entry 0 0) ∧
    ∀ (lam : K), 0 < lam → (∀ g, dotFn n g (matVec n A.entry g) ≤ lam * dotFn n g g) →
      ∀ v : Int → K, (∀ i : Int, 0 ≤ i → i < n → matVec n A.entry v i = lam * v i) → v 0 ≠ 0 → ∀ eps : K, 0 < eps →
      ∃ N0 : Nat, ∀ N : Nat, N0 ≤ N → ∃ T U, Example.qrEig sqrt A N = .ok (T, U) ∧ lam - eps < T.entry 0 0 ∧ T.entry 0 0 ≤ lam := by
  have key : ∀ N : Nat, ∃ T U, Example.qrEig sqrt A N = .ok (T, U) ∧ ¬ ZeroOn n (matPow n A.entry N first) ∧
      rayleigh n A.entry (matPow n A.entry N first) = T.entry 0 0 := by
    intro N
    obtain ⟨T, U, e, _, _, h1, h2, R, r1, r2, r3⟩ := C96_decomposition sqrt hs hn A hA hr hc hd N
    obtain ⟨z, f⟩ := first_entry A (by omega) N h1 h2 r1 r2 r3
    exact ⟨T, U, e, z, f⟩
  constructor
  · intro N T U T' U' h h'
    obtain ⟨T1, U1, e1, z1, f1⟩ := key N
    obtain ⟨T2, U2, e2, z2, f2⟩ := key (N + 1)
    rw [e1] at h
    rw [e2] at h'
    cases h
    cases h'
    rw [← f1, ← f2]
    exact Example.ray_mono sa pa _ N z1 z2
  · intro lam hl hmax v hv v0 eps heps
    have hfv : dotFn n first v ≠ 0 := by
      unfold dotFn
      rw [Finset.sum_eq_single 0]
      · unfold first; rw [if_pos rfl, one_mul]; exact v0
      · intro t _ ht; unfold first; rw [if_neg ht, zero_mul]
      · intro h; exact absurd (Finset.mem_Ico.mpr ⟨le_rfl, by omega⟩) h
    obtain ⟨_, N0, h⟩ := Example.ray_converges sa pa lam hl hmax v hv first hfv eps heps
    refine ⟨N0, fun N hN => ?_⟩
    obtain ⟨T, U, e, _, f⟩ := key N
    refine ⟨T, U, e, ?_⟩
    rw [← f]
    exact h N hN

namespace QrEig

omit [LinearOrder K] [IsStrictOrderedRing K] in
/-- The exchange of two coordinates is kept up to its sign. -/
theorem stuck_step {T T' Q R : Matrix (Fin 2) (Fin 2) K} (hq : Q.transpose * Q = 1) (hu : R 1 0 = 0) (h : T = Q * R) (h' : T' = R * Q)
    (c : K) (hc : c * c = 1) (hT : T 0 0 = 0 ∧ T 0 1 = c ∧ T 1 0 = c ∧ T 1 1 = 0) :
    ∃ d : K, d * d = 1 ∧ T' 0 0 = 0 ∧ T' 0 1 = d ∧ T' 1 0 = d ∧ T' 1 1 = 0 := by
  obtain ⟨t0, t1, t2, t3⟩ := hT
  have e : ∀ i j, (R.transpose * R) i j = (T.transpose * T) i j := by
    intro i j
    have : R.transpose * R = T.transpose * T := by
      rw [h, Matrix.transpose_mul]
      calc R.transpose * R = R.transpose * (Q.transpose * Q) * R := by rw [hq, Matrix.mul_one]
        _ = _ := by simp only [Matrix.mul_assoc]
    rw [this]
  have e00 := e 0 0
  have e01 := e 0 1
  have e11 := e 1 1
  simp only [Matrix.mul_apply, Fin.sum_univ_two, Matrix.transpose_apply, t0, t1, t2, t3, hu] at e00 e01 e11
  have r00 : R 0 0 * R 0 0 = 1 := by linear_combination e00 + hc
  have r01 : R 0 1 = 0 := by linear_combination R 0 0 * e01 - R 0 1 * r00
  rw [r01] at e11
  have r11 : R 1 1 * R 1 1 = 1 := by linear_combination e11 + hc
  have p00 : T 0 0 = Q 0 0 * R 0 0 + Q 0 1 * R 1 0 := by rw [h, Matrix.mul_apply, Fin.sum_univ_two]
  have p01 : T 0 1 = Q 0 0 * R 0 1 + Q 0 1 * R 1 1 := by rw [h, Matrix.mul_apply, Fin.sum_univ_two]
  have p10 : T 1 0 = Q 1 0 * R 0 0 + Q 1 1 * R 1 0 := by rw [h, Matrix.mul_apply, Fin.sum_univ_two]
  have p11 : T 1 1 = Q 1 0 * R 0 1 + Q 1 1 * R 1 1 := by rw [h, Matrix.mul_apply, Fin.sum_univ_two]
  rw [t0, hu] at p00
  rw [t1, r01] at p01
  rw [t2, hu] at p10
  rw [t3, r01] at p11
  have q00 : Q 0 0 = 0 := by linear_combination -R 0 0 * p00 - Q 0 0 * r00
  have q01 : Q 0 1 = c * R 1 1 := by linear_combination -R 1 1 * p01 - Q 0 1 * r11
  have q10 : Q 1 0 = c * R 0 0 := by linear_combination -R 0 0 * p10 - Q 1 0 * r00
  have q11 : Q 1 1 = 0 := by linear_combination -R 1 1 * p11 - Q 1 1 * r11
  refine ⟨c * R 0 0 * R 1 1, by linear_combination (R 0 0 * R 0 0 * R 1 1 * R 1 1) * hc + R 1 1 * R 1 1 * r00 + r11, ?_, ?_, ?_, ?_⟩
  all_goals rw [h', Matrix.mul_apply, Fin.sum_univ_two]
  all_goals simp only [q00, q01, q10, q11, r01, hu]
  all_goals ring

end QrEig

/-- **C96.**  Without a bound from below the iteration need not diagonalise: on the symmetric, invertible matrix that exchanges two coordinates the
entry outside the diagonal stays at 1 or -1 for ever. -/
theorem C96_stuck (sqrt : K → K) (hs : ∀ s, 0 ≤ s → sqrt s * sqrt s = s) (N : Nat) :
    ∃ T U, Example.qrEig sqrt (⟨2, 2, [0, 1, 1, 0]⟩ : Dense K) N = .ok (T, U) ∧ |T.mat 2 2 0 1| = 1 := by
  have e0 : (⟨2, 2, [0, 1, 1, 0]⟩ : Dense K).mat 2 2 0 0 = 0 := rfl
  have e1 : (⟨2, 2, [0, 1, 1, 0]⟩ : Dense K).mat 2 2 0 1 = 1 := rfl
  have e2 : (⟨2, 2, [0, 1, 1, 0]⟩ : Dense K).mat 2 2 1 0 = 1 := rfl
  have e3 : (⟨2, 2, [0, 1, 1, 0]⟩ : Dense K).mat 2 2 1 1 = 0 := rfl
  obtain ⟨S, s1, _, s3, s4, _⟩ := run_ok sqrt hs (n := 2) (by omega) (⟨2, 2, [0, 1, 1, 0]⟩ : Dense K) ⟨by show (0 : Int) ≤ 2; decide, by show (0 : Int) ≤ 2; decide, rfl⟩ rfl rfl (by
    rw [Matrix.det_fin_two, e0, e1, e2, e3]
    simp)
  have key : ∀ N, ∃ d : K, d * d = 1 ∧ (S N).1.mat 2 2 0 0 = 0 ∧ (S N).1.mat 2 2 0 1 = d ∧ (S N).1.mat 2 2 1 0 = d ∧ (S N).1.mat 2 2 1 1 = 0 := by
    intro N
    induction N with
    | zero => exact ⟨1, one_mul 1, by rw [s4]; exact e0, by rw [s4]; exact e1, by rw [s4]; exact e2, by rw [s4]; exact e3⟩
    | succ N ih =>
      obtain ⟨c, hc, hT⟩ := ih
      obtain ⟨Q, R, hq, hu, _, h, h', _⟩ := s3 N
      exact stuck_step hq (hu 1 0 (by decide)) h h' c hc hT
  obtain ⟨d, hd, _, h, _⟩ := key N
  refine ⟨_, _, s1 N, ?_⟩
  rw [h]
  rcases mul_self_eq_one_iff.mp hd with h | h
  · rw [h, abs_one]
  · rw [h, abs_neg, abs_one]

/-- **C96.**  `symmetrize` keeps the lower triangle and mirrors it, for matrices with at least as many rows as columns. -/
theorem C96_symmetrize {R : Type} [Zero R] (A : Dense R) (hA : A.WF) (hc : A.cols ≤ A.rows) :
    ∃ D, Example.symmetrize A = .ok D ∧ D.Is A.rows A.cols (fun i j => A.entry (max i j) (min i j)) := by
  obtain ⟨m, hm⟩ : ∃ m : Nat, A.rows = m := ⟨A.rows.toNat, by have := hA.rows_nonneg; omega⟩
  obtain ⟨n, hn⟩ : ∃ n : Nat, A.cols = n := ⟨A.cols.toNat, by have := hA.cols_nonneg; omega⟩
  have hE := hA.eq_ofFn
  rw [hm, hn, Int.toNat_natCast, Int.toNat_natCast] at hE
  rw [hm, hn] at hc ⊢
  generalize A.entry = f at hE ⊢
  subst hE
  refine ⟨Dense.ofFn m n (fun a b => if a < m ∧ a ≤ b then f b a else f a b), ?_, (Dense.is_ofFn m n _).congr ?_⟩
  · unfold Example.symmetrize
    have e : Dense.ofFn m n f = Dense.ofFn m n (fun a b => if a < (0 : Int) ∧ a ≤ b then f b a else f a b) := by
      apply Dense.ofFn_congr
      intro a b _ _ _ _
      rw [if_neg (by omega)]
    show forUp 0 (m : Int) (Dense.ofFn m n f) _ = _
    conv_lhs => rw [e]
    refine forUp_seq (by omega) (fun i => Dense.ofFn m n (fun a b => if a < i ∧ a ≤ b then f b a else f a b)) (fun i i0 i1 => ?_)
    by_cases hin : i ≤ n
    · have := forUp_seq' (a := i) (b := (n : Int)) hin (body := fun j D => do
          let x ← Dense.get D j i
          D.put i j x)
        (fun j => Dense.ofFn m n (fun a b => if (a < i ∨ a = i ∧ b < j) ∧ a ≤ b then f b a else f a b)) (by
          intro j j0 j1
          rw [Dense.get_ofFn (by omega) (by omega) (by omega) (by omega), ok_bind, Dense.put_ofFn _ i0 (by omega) (by omega) (by omega)]
          congr 1
          apply Dense.ofFn_congr
          intro a b _ _ _ _
          by_cases h : a = i ∧ b = j
          · obtain ⟨rfl, rfl⟩ := h
            have e2 : (if (b < a ∨ b = a ∧ a < b) ∧ b ≤ a then f a b else f b a) = f b a := if_neg (by omega)
            have e3 : (if (a < a ∨ a = a ∧ b < b + 1) ∧ a ≤ b then f b a else f a b) = f b a := if_pos (by omega)
            rw [if_pos ⟨rfl, rfl⟩, e2, e3]
          · rw [if_neg h]; congr 1; apply propext; omega)
      have e1 : Dense.ofFn m n (fun a b => if (a < i ∨ a = i ∧ b < i) ∧ a ≤ b then f b a else f a b)
          = Dense.ofFn m n (fun a b => if a < i ∧ a ≤ b then f b a else f a b) := by
        apply Dense.ofFn_congr
        intro a b _ _ _ _
        congr 1; apply propext; omega
      rw [e1] at this
      refine this.trans ?_
      congr 1
      apply Dense.ofFn_congr
      intro a b _ _ _ _
      congr 1; apply propext; omega
    · show forUp i (n : Int) _ _ = _
      rw [forUp_nil (by omega)]
      congr 1
      apply Dense.ofFn_congr
      intro a b _ _ _ _
      congr 1; apply propext; omega
  · intro a b _ h1 _ _
    show (if a < (m : Int) ∧ a ≤ b then f b a else f a b) = _
    by_cases h : a ≤ b
    · rw [if_pos ⟨h1, h⟩, max_eq_right h, min_eq_left h]
    · rw [if_neg (by omega), max_eq_left (by omega), min_eq_right (by omega)]

/-- **C96.**  A wide matrix fails an assertion. -/
theorem C96_symmetrize_wide {R : Type} [Zero R] (A : Dense R) (hA : A.WF) (h1 : 1 ≤ A.rows) (hc : A.rows < A.cols) :
    Example.symmetrize A = .error .assertFail := by
  have hin : forUp 0 A.cols A (fun j D => do
      let x ← Dense.get D j 0
      D.put 0 j x) = .error .assertFail := by
    refine forUp_fails (fun _ D => D.WF ∧ D.rows = A.rows ∧ D.cols = A.cols) (fun j => j < A.rows) .assertFail ⟨hA, rfl, rfl⟩ ?_ ?_ ⟨A.rows, by omega, hc, by omega⟩
    · rintro j D j0 j1 ⟨w, r, c⟩ hj
      have hE := w.eq_ofFn
      obtain ⟨m, hm⟩ : ∃ m : Nat, A.rows = m := ⟨A.rows.toNat, by omega⟩
      obtain ⟨n, hn⟩ : ∃ n : Nat, A.cols = n := ⟨A.cols.toNat, by omega⟩
      rw [r, c, hm, hn, Int.toNat_natCast, Int.toNat_natCast] at hE
      rw [hE, Dense.get_ofFn j0 (by omega) le_rfl (by omega), ok_bind, Dense.put_ofFn _ le_rfl (by omega) j0 (by omega)]
      exact ⟨_, rfl, Dense.ofFn_wf _ _ _, hm.symm, hn.symm⟩
    · rintro j D j0 j1 ⟨w, r, c⟩ hj
      unfold Dense.get
      rw [Dense.checkIdx_err (by omega)]
      rfl
  unfold Example.symmetrize
  rw [forUp_cons (by omega), hin]
  rfl

example : Example.symmetrize (⟨2, 2, [1, 2, 3, 4]⟩ : Dense Int) = .ok ⟨2, 2, [1, 2, 2, 4]⟩ ∧
    Example.symmetrize (⟨1, 2, [1, 2]⟩ : Dense Int) = .error .assertFail := by decide +kernel

example : Example.qrEig (fun s : Rat => if s = 25 then 5 else 3) ⟨2, 2, [3, 4, 0, 5]⟩ 1
    = .ok (⟨2, 2, [31/5, 12/5, -8/5, 9/5]⟩, ⟨2, 2, [3/5, 4/5, -4/5, 3/5]⟩) := by decide +kernel

example (eps : ℝ) (heps : 0 < eps) : ∃ N0 : Nat, ∀ N : Nat, N0 ≤ N → ∃ T U,
    Example.qrEig Real.sqrt (⟨2, 2, [2, 1, 1, 2]⟩ : Dense ℝ) N = .ok (T, U) ∧ |T.mat 2 2 0 1| < eps := by
  have e : ∀ i j : Fin 2, (⟨2, 2, [2, 1, 1, 2]⟩ : Dense ℝ).mat 2 2 i j = if i = j then 2 else 1 := by
    intro i j
    fin_cases i <;> fin_cases j <;> rfl
  obtain ⟨N0, h⟩ := C96_converges (n := 2) Real.sqrt (fun s h => Real.mul_self_sqrt h) (by omega) (⟨2, 2, [2, 1, 1, 2]⟩ : Dense ℝ)
    ⟨by show (0 : Int) ≤ 2; decide, by show (0 : Int) ≤ 2; decide, rfl⟩ rfl rfl (Matrix.IsSymm.ext (fun i j => by rw [e, e]; simp only [eq_comm])) 1 one_pos (by
      intro x
      simp only [dotProduct, Matrix.mulVec, Fin.sum_univ_two, e]
      norm_num
      nlinarith [sq_nonneg (x 0 + x 1)]) eps heps
  exact ⟨N0, fun N hN => by
    obtain ⟨T, U, e, h1, _⟩ := h N hN
    exact ⟨T, U, e, h1 0 1 (by decide)⟩⟩

/-- The hypotheses of `C96_largest` hold for the same matrix, with the eigenvalue 3. -/
example : let A : Dense ℝ := ⟨2, 2, [2, 1, 1, 2]⟩
    (A.mat 2 2).det ≠ 0 ∧ SymmOn (2 : Nat) A.entry ∧ PosSemiOn (2 : Nat) A.entry ∧
    (∀ g, dotFn (2 : Nat) g (matVec (2 : Nat) A.entry g) ≤ 3 * dotFn (2 : Nat) g g) ∧
    ∀ i : Int, 0 ≤ i → i < (2 : Nat) → matVec (2 : Nat) A.entry (fun _ => 1) i = 3 * 1 := by
  intro A
  have c1 : A.entry 0 0 = 2 := rfl
  have c2 : A.entry 0 1 = 1 := rfl
  have c3 : A.entry 1 0 = 1 := rfl
  have c4 : A.entry 1 1 = 2 := rfl
  have hform : ∀ g, dotFn (2 : Nat) g (matVec (2 : Nat) A.entry g) = 2 * (g 0 * g 0) + 2 * (g 0 * g 1) + 2 * (g 1 * g 1) := by
    intro g
    unfold dotFn matVec
    simp only [Example.sum_two, c1, c2, c3, c4]
    ring
  refine ⟨?_, ?_, ?_, ?_, ?_⟩
  · rw [Matrix.det_fin_two]
    show A.entry 0 0 * A.entry 1 1 - A.entry 0 1 * A.entry 1 0 ≠ 0
    rw [c1, c2, c3, c4]
    norm_num
  · intro i j i0 i1 j0 j1
    rcases (by omega : i = 0 ∨ i = 1) with rfl | rfl <;> rcases (by omega : j = 0 ∨ j = 1) with rfl | rfl <;> simp [c2, c3]
  · intro g
    rw [hform]
    nlinarith [mul_self_nonneg (g 0 + g 1), mul_self_nonneg (g 0), mul_self_nonneg (g 1)]
  · intro g
    rw [hform]
    unfold dotFn
    rw [Example.sum_two]
    nlinarith [mul_self_nonneg (g 0 - g 1)]
  · intro i i0 i1
    unfold matVec
    rw [Example.sum_two]
    rcases (by omega : i = 0 ∨ i = 1) with rfl | rfl
    · rw [c1, c2]; norm_num
    · rw [c3, c4]; norm_num

end Linalg
