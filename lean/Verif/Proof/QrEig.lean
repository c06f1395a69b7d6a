import Mathlib.LinearAlgebra.Matrix.Symmetric
import Mathlib.LinearAlgebra.Matrix.Trace
import Mathlib.LinearAlgebra.Matrix.NonsingularInverse
import Mathlib.Algebra.Order.BigOperators.Ring.Finset
import Mathlib.Algebra.Order.Archimedean.Basic
import Mathlib.Tactic.Linarith
import Mathlib.Tactic.Ring
import Mathlib.Tactic.NoncommRing

/-!
# Why the QR iteration converges

`T = Q R`, `T' = R Q`: the squared columns of a symmetric `T` are those of `R`, the squared rows of `T'` are those of `R`.
-/

namespace Linalg.QrEig

variable {K : Type} [Field K] [LinearOrder K] [IsStrictOrderedRing K] {n : Nat}

/-- The sum of the squares of the entries. -/
def frob (M : Matrix (Fin n) (Fin n) K) : K := ∑ i, ∑ j, M i j ^ 2

/-- The sum of the squares of the entries outside the diagonal. -/
def off (M : Matrix (Fin n) (Fin n) K) : K := ∑ i, ∑ j, if i = j then 0 else M i j ^ 2

/-- The sum of the squares, each with the number of its column. -/
def wsum (M : Matrix (Fin n) (Fin n) K) : K := ∑ i : Fin n, ∑ j : Fin n, ((j : Nat) : K) * M i j ^ 2

omit [LinearOrder K] [IsStrictOrderedRing K] in
/-- Columns. -/
theorem col_sq {T Q R : Matrix (Fin n) (Fin n) K} (hq : Q.transpose * Q = 1) (h : T = Q * R) (j : Fin n) :
    ∑ i, T i j ^ 2 = ∑ i, R i j ^ 2 := by
  have e : T.transpose * T = R.transpose * R := by
    rw [h, Matrix.transpose_mul]
    calc R.transpose * Q.transpose * (Q * R) = R.transpose * (Q.transpose * Q) * R := by simp only [Matrix.mul_assoc]
      _ = _ := by rw [hq, Matrix.mul_one]
  have := congrFun (congrFun e j) j
  simp only [Matrix.mul_apply, Matrix.transpose_apply] at this
  simpa only [pow_two] using this

omit [LinearOrder K] [IsStrictOrderedRing K] in
/-- Rows. -/
theorem row_sq {T Q R : Matrix (Fin n) (Fin n) K} (hq : Q.transpose * Q = 1) (h : T = R * Q) (i : Fin n) :
    ∑ j, T i j ^ 2 = ∑ j, R i j ^ 2 := by
  have hq' : Q * Q.transpose = 1 := mul_eq_one_comm.mp hq
  have e : T * T.transpose = R * R.transpose := by
    rw [h, Matrix.transpose_mul]
    calc R * Q * (Q.transpose * R.transpose) = R * (Q * Q.transpose) * R.transpose := by simp only [Matrix.mul_assoc]
      _ = _ := by rw [hq', Matrix.mul_one]
  have := congrFun (congrFun e i) i
  simp only [Matrix.mul_apply, Matrix.transpose_apply] at this
  simpa only [pow_two] using this

omit [LinearOrder K] [IsStrictOrderedRing K] in
/-- The next matrix is symmetric too. -/
theorem next_symm {T T' Q R : Matrix (Fin n) (Fin n) K} (hq : Q.transpose * Q = 1) (h : T = Q * R) (h' : T' = R * Q)
    (hs : T.IsSymm) : T'.IsSymm := by
  have e : T' = Q.transpose * T * Q := by
    rw [h, h', ← Matrix.mul_assoc, hq, Matrix.one_mul]
  rw [e]
  unfold Matrix.IsSymm
  rw [Matrix.transpose_mul, Matrix.transpose_mul, Matrix.transpose_transpose, hs.eq, Matrix.mul_assoc]

omit [LinearOrder K] [IsStrictOrderedRing K] in
theorem frob_next {T T' Q R : Matrix (Fin n) (Fin n) K} (hq : Q.transpose * Q = 1) (h : T = Q * R) (h' : T' = R * Q) :
    frob T' = frob T ∧ frob T = frob R := by
  have e1 : frob T = frob R := by
    unfold frob
    rw [Finset.sum_comm, Finset.sum_congr rfl (fun j _ => col_sq hq h j), Finset.sum_comm]
  refine ⟨?_, e1⟩
  rw [e1]
  exact Finset.sum_congr rfl (fun i _ => row_sq hq h' i)

/-- The weighted sum falls by at least what `R` has above the diagonal. -/
theorem wsum_next {T T' Q R : Matrix (Fin n) (Fin n) K} (hq : Q.transpose * Q = 1) (h : T = Q * R) (h' : T' = R * Q)
    (hs : T.IsSymm) (hu : ∀ i j, j < i → R i j = 0) : wsum T' + off R ≤ wsum T := by
  have hs' := next_symm hq h h' hs
  have e1 : wsum T = ∑ i : Fin n, ∑ j : Fin n, ((j : Nat) : K) * R i j ^ 2 := by
    unfold wsum
    rw [Finset.sum_comm]
    conv_rhs => rw [Finset.sum_comm]
    refine Finset.sum_congr rfl (fun j _ => ?_)
    rw [← Finset.mul_sum, ← Finset.mul_sum, col_sq hq h j]
  have e2 : wsum T' = ∑ i : Fin n, ∑ j : Fin n, ((i : Nat) : K) * R i j ^ 2 := by
    unfold wsum
    rw [Finset.sum_comm]
    refine Finset.sum_congr rfl (fun j _ => ?_)
    rw [← Finset.mul_sum, ← Finset.mul_sum, ← row_sq hq h' j]
    congr 1
    refine Finset.sum_congr rfl (fun i _ => ?_)
    rw [hs'.apply j i]
  rw [e1, e2]
  unfold off
  rw [← Finset.sum_add_distrib]
  refine Finset.sum_le_sum (fun i _ => ?_)
  rw [← Finset.sum_add_distrib]
  refine Finset.sum_le_sum (fun j _ => ?_)
  rcases lt_trichotomy i j with hij | hij | hij
  · rw [if_neg hij.ne, ← sub_nonneg]
    have h1 : ((i : Nat) : K) + 1 ≤ ((j : Nat) : K) := by
      have : (i : Nat) + 1 ≤ j := hij
      exact_mod_cast this
    have h2 : (0 : K) ≤ (((j : Nat) : K) - ((i : Nat) : K) - 1) * R i j ^ 2 := mul_nonneg (by linarith) (sq_nonneg _)
    linarith [h2]
  · rw [if_pos hij, add_zero, hij]
  · rw [hu i j hij, if_neg hij.ne']
    simp

theorem off_nonneg (M : Matrix (Fin n) (Fin n) K) : 0 ≤ off M :=
  Finset.sum_nonneg (fun i _ => Finset.sum_nonneg (fun j _ => by split <;> first | exact le_rfl | exact sq_nonneg _))

theorem wsum_nonneg (M : Matrix (Fin n) (Fin n) K) : 0 ≤ wsum M :=
  Finset.sum_nonneg (fun _ _ => Finset.sum_nonneg (fun _ _ => mul_nonneg (Nat.cast_nonneg _) (sq_nonneg _)))

theorem frob_nonneg (M : Matrix (Fin n) (Fin n) K) : 0 ≤ frob M :=
  Finset.sum_nonneg (fun _ _ => Finset.sum_nonneg (fun _ _ => sq_nonneg _))

/-- One entry outside the diagonal. -/
theorem sq_le_off (M : Matrix (Fin n) (Fin n) K) {i j : Fin n} (h : i ≠ j) : M i j ^ 2 ≤ off M := by
  have h1 : ∀ i : Fin n, (0 : K) ≤ ∑ j, if i = j then 0 else M i j ^ 2 := fun i =>
    Finset.sum_nonneg (fun j _ => by split <;> first | exact le_rfl | exact sq_nonneg _)
  calc M i j ^ 2 = if i = j then 0 else M i j ^ 2 := by rw [if_neg h]
    _ ≤ ∑ j, if i = j then 0 else M i j ^ 2 :=
        Finset.single_le_sum (f := fun j => if i = j then 0 else M i j ^ 2) (fun j _ => by
          show (0 : K) ≤ if i = j then 0 else M i j ^ 2
          split <;> first | exact le_rfl | exact sq_nonneg _) (Finset.mem_univ j)
    _ ≤ off M := Finset.single_le_sum (f := fun i => ∑ j, if i = j then 0 else M i j ^ 2) (fun i _ => h1 i) (Finset.mem_univ i)

/-- `Rᵀ R` without the squares of the diagonal is small when `R` is almost diagonal. -/
theorem gram_small (R : Matrix (Fin n) (Fin n) K) (hu : ∀ i j, j < i → R i j = 0) (i j : Fin n) :
    ((R.transpose * R - Matrix.diagonal (fun k => R k k ^ 2)) i j) ^ 2 ≤ frob R * off R := by
  have key : ∀ i j : Fin n, i ≤ j →
      (R.transpose * R - Matrix.diagonal (fun k => R k k ^ 2)) i j = ∑ t, R t i * if t = j then 0 else R t j := by
    intro i j hij
    rw [Matrix.sub_apply, Matrix.mul_apply]
    simp only [Matrix.transpose_apply]
    rw [sub_eq_iff_eq_add]
    have e : ∀ t, R t i * R t j = (R t i * if t = j then 0 else R t j) + if t = j then R j i * R j j else 0 := by
      intro t
      by_cases h : t = j
      · rw [if_pos h, if_pos h, mul_zero, zero_add, h]
      · rw [if_neg h, if_neg h, add_zero]
    rw [Finset.sum_congr rfl (fun t _ => e t), Finset.sum_add_distrib, Finset.sum_ite_eq' Finset.univ j, if_pos (Finset.mem_univ j)]
    congr 1
    by_cases h : i = j
    · rw [h, Matrix.diagonal_apply_eq, pow_two]
    · rw [Matrix.diagonal_apply_ne _ h, hu j i (lt_of_le_of_ne hij h), zero_mul]
  have bound : ∀ i j : Fin n, (∑ t, R t i * if t = j then 0 else R t j) ^ 2 ≤ frob R * off R := by
    intro i j
    refine (Finset.sum_mul_sq_le_sq_mul_sq _ _ _).trans (mul_le_mul ?_ ?_ ?_ (frob_nonneg R))
    · unfold frob
      rw [Finset.sum_comm]
      exact Finset.single_le_sum (f := fun i => ∑ t, R t i ^ 2) (fun i _ => Finset.sum_nonneg (fun _ _ => sq_nonneg _)) (Finset.mem_univ i)
    · unfold off
      rw [Finset.sum_comm]
      have : ∑ t, (if t = j then 0 else R t j) ^ 2 = ∑ t, if t = j then 0 else R t j ^ 2 :=
        Finset.sum_congr rfl (fun t _ => by split <;> simp)
      rw [this]
      exact Finset.single_le_sum (f := fun j => ∑ t, if t = j then 0 else R t j ^ 2)
        (fun j _ => Finset.sum_nonneg (fun t _ => by split <;> first | exact le_rfl | exact sq_nonneg _)) (Finset.mem_univ j)
    · exact Finset.sum_nonneg (fun t _ => sq_nonneg _)
  rcases le_total i j with h | h
  · rw [key i j h]; exact bound i j
  · have e : (R.transpose * R - Matrix.diagonal (fun k => R k k ^ 2)) i j
        = (R.transpose * R - Matrix.diagonal (fun k => R k k ^ 2)) j i := by
      rw [Matrix.sub_apply, Matrix.sub_apply, Matrix.mul_apply, Matrix.mul_apply]
      congr 1
      · exact Finset.sum_congr rfl (fun t _ => mul_comm _ _)
      · by_cases hij : i = j
        · rw [hij]
        · rw [Matrix.diagonal_apply_ne _ hij, Matrix.diagonal_apply_ne _ (Ne.symm hij)]
    rw [e, key j i h]
    exact bound j i

/-- A symmetric matrix with form at least `mu` whose square is almost that of a nonnegative diagonal matrix is almost diagonal. -/
theorem off_le {T : Matrix (Fin n) (Fin n) K} (hs : T.IsSymm) {mu : K} (hmu : 0 < mu)
    (hT : ∀ x : Fin n → K, mu * ∑ i, x i ^ 2 ≤ ∑ i, x i * ∑ j, T i j * x j) (d : Fin n → K) (hd : ∀ i, 0 ≤ d i) :
    mu ^ 2 * off T ≤ frob (T * T - Matrix.diagonal (fun k => d k ^ 2)) := by
  set D : Matrix (Fin n) (Fin n) K := Matrix.diagonal d with hD
  set X := T - D with hX
  set E := T * T - Matrix.diagonal (fun k => d k ^ 2) with hE
  have hDD : D * D = Matrix.diagonal (fun k => d k ^ 2) := by
    rw [hD, Matrix.diagonal_mul_diagonal]
    congr 1
    funext k
    rw [pow_two]
  have hXs : X.IsSymm := by
    unfold Matrix.IsSymm
    rw [hX, Matrix.transpose_sub, hs.eq, hD, Matrix.diagonal_transpose]
  have e1 : X * (T + D) + (T + D) * X = E + E := by
    rw [hE, ← hDD, hX]
    noncomm_ring
  have e2 : Matrix.trace (X * ((T + D) * X)) = Matrix.trace (X * E) := by
    have h := congrArg (fun M => Matrix.trace (X * M)) e1
    simp only [Matrix.mul_add, Matrix.trace_add] at h
    have h2 : Matrix.trace (X * (X * (T + D))) = Matrix.trace (X * ((T + D) * X)) := by
      rw [Matrix.trace_mul_comm X (X * (T + D)), Matrix.mul_assoc]
    simp only [Matrix.mul_add, Matrix.add_mul, Matrix.trace_add] at h h2 ⊢
    linarith
  have lower : mu * frob X ≤ Matrix.trace (X * ((T + D) * X)) := by
    rw [Matrix.add_mul, Matrix.mul_add, Matrix.trace_add]
    have h1 : mu * frob X ≤ Matrix.trace (X * (T * X)) := by
      unfold frob Matrix.trace
      rw [Finset.mul_sum]
      refine Finset.sum_le_sum (fun i _ => ?_)
      refine (hT (fun j => X i j)).trans (le_of_eq ?_)
      rw [Matrix.diag_apply, Matrix.mul_apply]
      refine Finset.sum_congr rfl (fun j _ => ?_)
      rw [Matrix.mul_apply]
      congr 1
      exact Finset.sum_congr rfl (fun k _ => by rw [hXs.apply i k])
    have h2 : 0 ≤ Matrix.trace (X * (D * X)) := by
      unfold Matrix.trace
      refine Finset.sum_nonneg (fun i _ => ?_)
      rw [Matrix.diag_apply, Matrix.mul_apply]
      refine Finset.sum_nonneg (fun j _ => ?_)
      rw [hD, Matrix.diagonal_mul, hXs.apply i j]
      have := mul_nonneg (hd j) (mul_self_nonneg (X i j))
      linarith [this]
    linarith
  have upper : Matrix.trace (X * E) * (2 * mu) ≤ mu ^ 2 * frob X + frob E := by
    have hEs : E.IsSymm := by
      unfold Matrix.IsSymm
      rw [hE, Matrix.transpose_sub, Matrix.transpose_mul, hs.eq, Matrix.diagonal_transpose]
    unfold Matrix.trace frob
    rw [Finset.sum_mul, Finset.mul_sum, ← Finset.sum_add_distrib]
    refine Finset.sum_le_sum (fun i _ => ?_)
    rw [Matrix.diag_apply, Matrix.mul_apply, Finset.sum_mul, Finset.mul_sum, ← Finset.sum_add_distrib]
    refine Finset.sum_le_sum (fun j _ => ?_)
    rw [hEs.apply i j]
    nlinarith [sq_nonneg (mu * X i j - E i j)]
  have hoff : off T ≤ frob X := by
    unfold off frob
    refine Finset.sum_le_sum (fun i _ => Finset.sum_le_sum (fun j _ => ?_))
    split
    · exact sq_nonneg _
    · next h => rw [hX, Matrix.sub_apply, hD, Matrix.diagonal_apply_ne _ h, sub_zero]
  have h3 : mu * frob X * (2 * mu) ≤ mu ^ 2 * frob X + frob E := by
    refine le_trans (mul_le_mul_of_nonneg_right lower (by linarith)) ?_
    rw [e2]
    exact upper
  have h4 : mu ^ 2 * off T ≤ mu ^ 2 * frob X := mul_le_mul_of_nonneg_left hoff (sq_nonneg _)
  have h5 : mu * frob X * (2 * mu) = mu ^ 2 * frob X + mu ^ 2 * frob X := by ring
  linarith

/-- One pass: how far from diagonal. -/
theorem off_step {T Q R : Matrix (Fin n) (Fin n) K} (hq : Q.transpose * Q = 1) (h : T = Q * R)
    (hs : T.IsSymm) (hu : ∀ i j, j < i → R i j = 0) {mu : K} (hmu : 0 < mu)
    (hT : ∀ x : Fin n → K, mu * ∑ i, x i ^ 2 ≤ ∑ i, x i * ∑ j, T i j * x j) :
    mu ^ 2 * off T ≤ (n : K) * n * (frob T * off R) := by
  have e : T * T = R.transpose * R := by
    calc T * T = T.transpose * T := by rw [hs.eq]
      _ = R.transpose * (Q.transpose * Q) * R := by rw [h, Matrix.transpose_mul]; simp only [Matrix.mul_assoc]
      _ = _ := by rw [hq, Matrix.mul_one]
  have e2 : (fun k => R k k ^ 2) = fun k => |R k k| ^ 2 := by funext k; rw [sq_abs]
  have h1 := off_le hs hmu hT (fun k => |R k k|) (fun k => abs_nonneg _)
  refine h1.trans ?_
  rw [e, ← e2, (frob_next hq h rfl).2]
  calc frob (R.transpose * R - Matrix.diagonal (fun k => R k k ^ 2)) ≤ ∑ _i : Fin n, ∑ _j : Fin n, frob R * off R :=
        Finset.sum_le_sum (fun i _ => Finset.sum_le_sum (fun j _ => gram_small R hu i j))
    _ = _ := by simp only [Finset.sum_const, Finset.card_univ, Fintype.card_fin, nsmul_eq_mul]; ring

/-- What falls by `d` each time and stays nonnegative falls by little in the end. -/
theorem small_steps [Archimedean K] (s d : Nat → K) (hs : ∀ k, 0 ≤ s k) (hd : ∀ k, 0 ≤ d k) (h : ∀ k, s (k + 1) + d k ≤ s k)
    (eps : K) (heps : 0 < eps) : ∃ k0, ∀ k, k0 ≤ k → d k < eps := by
  by_contra hc
  push Not at hc
  have mono : ∀ k m, s (k + m) ≤ s k := by
    intro k m
    induction m with
    | zero => exact le_rfl
    | succ m ih =>
      have := h (k + m)
      have := hd (k + m)
      rw [← add_assoc]
      linarith
  have key : ∀ m : Nat, ∃ k, s k + m * eps ≤ s 0 := by
    intro m
    induction m with
    | zero => exact ⟨0, by simp⟩
    | succ m ih =>
      obtain ⟨k, hk⟩ := ih
      obtain ⟨j, hj, hj2⟩ := hc k
      obtain ⟨l, rfl⟩ := Nat.exists_eq_add_of_le hj
      refine ⟨k + l + 1, ?_⟩
      have h1 := h (k + l)
      have h2 := mono k l
      push_cast
      linarith
  obtain ⟨m, hm⟩ := Archimedean.arch (s 0) heps
  obtain ⟨k, hk⟩ := key (m + 1)
  have := hs k
  rw [nsmul_eq_mul] at hm
  push_cast at hk
  linarith

end Linalg.QrEig
