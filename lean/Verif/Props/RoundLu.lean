import Verif.Proof.RoundLu
import Verif.Props.Examples
import Verif.Props.Round

/-! # C105: rounding errors of the factorisation and the triangular solves of `dense_lu.cpp` -/

namespace Linalg
open Cpp

namespace Example
open Rounding

section AnyOperations
variable {K : Type} [Zero K] [One K] [Sub K] [Mul K] [Div K]

theorem luSeq_above (a : Int → Int → K) (k : Nat) (i c : Int) (h : i < c) : (luSeq a k).1 i c = 0 := by
  induction k with
  | zero => rfl
  | succ k ih =>
    simp only [luSeq]
    unfold nextL
    split
    · rw [if_neg (by omega), if_neg (by omega), ih]
    · exact ih

theorem luSeq_diag (a : Int → Int → K) (k t : Nat) (h : t < k) : (luSeq a k).1 t t = 1 := by
  rw [luSeq_col a t k h]
  simp only [luSeq]
  unfold nextL
  rw [if_pos rfl, if_pos rfl]

end AnyOperations

/-- A sum of products with factors against the sum without. -/
theorem sum_fac {r : Rounding} {n : Nat} {s : Finset Int} {p q f : Int → ℝ} (hf : ∀ j ∈ s, r.Fac n (f j)) :
    |∑ j ∈ s, p j * q j - ∑ j ∈ s, p j * f j * q j| ≤ r.gamma n * ∑ j ∈ s, |p j| * |q j| := by
  rw [← Finset.sum_sub_distrib, Finset.mul_sum]
  refine (Finset.abs_sum_le_sum_abs _ _).trans (Finset.sum_le_sum ?_)
  intro j hj
  have e : p j * q j - p j * f j * q j = -((f j - 1) * (p j * q j)) := by ring
  rw [e, abs_neg, abs_mul, abs_mul]
  exact mul_le_mul_of_nonneg_right (hf j hj) (by positivity)

/-- One entry of the matrix from the factors. -/
theorem lu_entry (r : Rounding) (a : Int → Int → ℝ) {n : Nat} (i c : Nat) (hi : i < n) (hc : c < n)
    (hp : c < i → (@luSeq ℝ _ _ r.sub r.mul r.div a c).2 c c ≠ 0) :
    |∑ t ∈ Finset.Ico 0 ((min i c : Nat) + 1 : Int), (@luSeq ℝ _ _ r.sub r.mul r.div a n).1 i t * (@luSeq ℝ _ _ r.sub r.mul r.div a n).2 t c - a i c|
      ≤ r.gamma i * ∑ t ∈ Finset.Ico 0 ((min i c : Nat) + 1 : Int), |(@luSeq ℝ _ _ r.sub r.mul r.div a n).1 i t| * |(@luSeq ℝ _ _ r.sub r.mul r.div a n).2 t c| := by
  obtain ⟨k, hk⟩ : ∃ k, k = min i c := ⟨_, rfl⟩
  rw [← hk]
  obtain ⟨t, f, ht, hf, e⟩ := luSeq_round r a k i c (by omega) (by omega)
  have hS : ∑ j ∈ Finset.range k, (@luSeq ℝ _ _ r.sub r.mul r.div a (j + 1)).1 i j * f j * (@luSeq ℝ _ _ r.sub r.mul r.div a j).2 j c
      = ∑ j ∈ Finset.Ico (0 : Int) k, (@luSeq ℝ _ _ r.sub r.mul r.div a n).1 i j * f j.toNat * (@luSeq ℝ _ _ r.sub r.mul r.div a n).2 j c := by
    apply Finset.sum_bij' (fun (j : Nat) _ => (j : Int)) (fun (j : Int) _ => j.toNat)
    · intro j hj; have := Finset.mem_range.mp hj; exact Finset.mem_Ico.mpr (by omega)
    · intro j hj; have := Finset.mem_Ico.mp hj; exact Finset.mem_range.mpr (by omega)
    · intro j hj; omega
    · intro j hj; have := Finset.mem_Ico.mp hj; omega
    · intro j hj
      have := Finset.mem_range.mp hj
      rw [Int.toNat_natCast, @luSeq_col ℝ _ _ r.sub r.mul r.div a j n (by omega), @luSeq_row ℝ _ _ r.sub r.mul r.div a j n (by omega)]
  -- the last term
  obtain ⟨g, hg, e2⟩ : ∃ g, r.Fac i g ∧ (@luSeq ℝ _ _ r.sub r.mul r.div a k).2 i c * t
      = (@luSeq ℝ _ _ r.sub r.mul r.div a n).1 i k * g * (@luSeq ℝ _ _ r.sub r.mul r.div a n).2 k c := by
    by_cases hic : i ≤ c
    · obtain rfl : k = i := by omega
      refine ⟨t, ht, ?_⟩
      rw [@luSeq_diag ℝ _ _ r.sub r.mul r.div a n k hi, @luSeq_row ℝ _ _ r.sub r.mul r.div a k n (by omega)]
      ring
    · obtain rfl : k = c := by omega
      obtain ⟨t', ht', e3⟩ := r.div_fac ((@luSeq ℝ _ _ r.sub r.mul r.div a k).2 i k) (hp (by omega))
      refine ⟨t * t', (ht.mul ht').mono (by omega), ?_⟩
      have hL : (@luSeq ℝ _ _ r.sub r.mul r.div a (k + 1)).1 i k
          = r.rnd ((@luSeq ℝ _ _ r.sub r.mul r.div a k).2 i k / (@luSeq ℝ _ _ r.sub r.mul r.div a k).2 k k) := by
        change @nextL ℝ _ r.div (k : Int) (@luSeq ℝ _ _ r.sub r.mul r.div a k).1 (@luSeq ℝ _ _ r.sub r.mul r.div a k).2 i k = _
        unfold nextL
        rw [if_pos rfl, if_neg (by omega), if_pos (by omega)]
        rfl
      rw [@luSeq_col ℝ _ _ r.sub r.mul r.div a k n hc, hL, @luSeq_row ℝ _ _ r.sub r.mul r.div a k n (by omega)]
      conv_lhs => rw [e3]
      ring
  have e4 : a i c = ∑ j ∈ Finset.Ico (0 : Int) ((k : Int) + 1), (@luSeq ℝ _ _ r.sub r.mul r.div a n).1 i j *
      (if j = k then g else f j.toNat) * (@luSeq ℝ _ _ r.sub r.mul r.div a n).2 j c := by
    rw [sum_Ico_succ _ (by omega), if_pos rfl, e, e2, hS, add_comm]
    congr 1
    apply Finset.sum_congr rfl
    intro j hj
    have := Finset.mem_Ico.mp hj
    rw [if_neg (by omega)]
  rw [e4]
  apply sum_fac
  intro j _
  split
  · exact hg
  · exact (hf _).mono (by omega)

/-- **C105.**  With every operation rounded, if `lu_decomp` returns, it returns a unit lower triangular `L` and a `U` with nonzero
pivots except maybe the last one, and the product of `L` with the upper triangle of `U` is the matrix up to an error in row `i` of at
most `gamma i` times `|L| |U|`. -/
theorem C105_factor (r : Rounding) (A : Dense ℝ) (hA : A.WF) (hsq : A.cols = A.rows) (L U : Dense ℝ)
    (h : @luDecomp ℝ _ _ r.sub r.mul r.div _ A = .ok (L, U)) :
    L.Is A.rows A.rows L.entry ∧ U.Is A.rows A.rows U.entry ∧ UnitLower A.rows L.entry ∧
      (∀ i, 0 ≤ i → i + 1 < A.rows → U.entry i i ≠ 0) ∧
      ∀ i j, 0 ≤ i → i < A.rows → 0 ≤ j → j < A.rows →
        |∑ t ∈ Finset.Ico 0 (min i j + 1), L.entry i t * U.entry t j - A.entry i j|
          ≤ r.gamma i.toNat * ∑ t ∈ Finset.Ico 0 (min i j + 1), |L.entry i t| * |U.entry t j| := by
  obtain ⟨n, hn⟩ : ∃ n : Nat, A.rows = n := ⟨A.rows.toNat, by have := hA.rows_nonneg; omega⟩
  have hE := hA.eq_ofFn
  rw [hsq, hn] at hE
  simp only [Int.toNat_natCast] at hE
  obtain ⟨a, ha⟩ : ∃ a, a = A.entry := ⟨_, rfl⟩
  rw [← ha] at hE
  rw [hn, ← ha]
  by_cases hp : ∀ i : Nat, i + 1 < n → (@luSeq ℝ _ _ r.sub r.mul r.div a i).2 i i ≠ 0
  · rw [hE, @luDecomp_ok ℝ _ _ r.sub r.mul r.div _ n a hp] at h
    simp only [Except.ok.injEq, Prod.mk.injEq] at h
    obtain ⟨rfl, rfl⟩ := h
    have eL := Dense.is_ofFn n n (@luSeq ℝ _ _ r.sub r.mul r.div a n).1
    have eU := Dense.is_ofFn n n (@luSeq ℝ _ _ r.sub r.mul r.div a n).2
    have gL : ∀ i j : Int, 0 ≤ i → i < n → 0 ≤ j → j < n →
        (Dense.ofFn n n (@luSeq ℝ _ _ r.sub r.mul r.div a n).1).entry i j = (@luSeq ℝ _ _ r.sub r.mul r.div a n).1 i j := by
      intro i j h0 h1 h2 h3; unfold Dense.entry; rw [eL.get_eq i j h0 h1 h2 h3]
    have gU : ∀ i j : Int, 0 ≤ i → i < n → 0 ≤ j → j < n →
        (Dense.ofFn n n (@luSeq ℝ _ _ r.sub r.mul r.div a n).2).entry i j = (@luSeq ℝ _ _ r.sub r.mul r.div a n).2 i j := by
      intro i j h0 h1 h2 h3; unfold Dense.entry; rw [eU.get_eq i j h0 h1 h2 h3]
    refine ⟨eL.congr (fun i j h0 h1 h2 h3 => (gL i j h0 h1 h2 h3).symm),
      eU.congr (fun i j h0 h1 h2 h3 => (gU i j h0 h1 h2 h3).symm), ⟨?_, ?_⟩, ?_, ?_⟩
    · intro i h0 h1
      obtain ⟨i, rfl⟩ : ∃ k : Nat, i = k := ⟨i.toNat, by omega⟩
      rw [gL i i h0 h1 h0 h1, @luSeq_diag ℝ _ _ r.sub r.mul r.div a n i (by omega)]
    · intro i j h0 h1 h2
      rw [gL i j h0 (by omega) (by omega) h2]
      exact @luSeq_above ℝ _ _ r.sub r.mul r.div a n i j h1
    · intro i h0 h1
      obtain ⟨i, rfl⟩ : ∃ k : Nat, i = k := ⟨i.toNat, by omega⟩
      rw [gU i i h0 (by omega) h0 (by omega), @luSeq_row ℝ _ _ r.sub r.mul r.div a i n (by omega)]
      exact hp i (by omega)
    · intro i j h0 h1 h2 h3
      obtain ⟨i, rfl⟩ : ∃ k : Nat, i = k := ⟨i.toNat, by omega⟩
      obtain ⟨j, rfl⟩ : ∃ k : Nat, j = k := ⟨j.toNat, by omega⟩
      have hb := lu_entry r a (n := n) i j (by omega) (by omega) (fun hji => hp j (by omega))
      rw [Nat.cast_min] at hb
      have s1 : ∑ t ∈ Finset.Ico 0 (min (i : Int) j + 1), (Dense.ofFn n n (@luSeq ℝ _ _ r.sub r.mul r.div a n).1).entry i t *
          (Dense.ofFn n n (@luSeq ℝ _ _ r.sub r.mul r.div a n).2).entry t j
          = ∑ t ∈ Finset.Ico 0 (min (i : Int) j + 1), (@luSeq ℝ _ _ r.sub r.mul r.div a n).1 i t * (@luSeq ℝ _ _ r.sub r.mul r.div a n).2 t j := by
        apply Finset.sum_congr rfl
        intro t ht
        have := Finset.mem_Ico.mp ht
        rw [gL i t h0 h1 this.1 (by omega), gU t j this.1 (by omega) h2 h3]
      have s2 : ∑ t ∈ Finset.Ico 0 (min (i : Int) j + 1), |(Dense.ofFn n n (@luSeq ℝ _ _ r.sub r.mul r.div a n).1).entry i t| *
          |(Dense.ofFn n n (@luSeq ℝ _ _ r.sub r.mul r.div a n).2).entry t j|
          = ∑ t ∈ Finset.Ico 0 (min (i : Int) j + 1), |(@luSeq ℝ _ _ r.sub r.mul r.div a n).1 i t| * |(@luSeq ℝ _ _ r.sub r.mul r.div a n).2 t j| := by
        apply Finset.sum_congr rfl
        intro t ht
        have := Finset.mem_Ico.mp ht
        rw [gL i t h0 h1 this.1 (by omega), gU t j this.1 (by omega) h2 h3]
      rw [s1, s2, Int.toNat_natCast]
      exact hb
  · rw [hE, @luDecomp_err ℝ _ _ r.sub r.mul r.div _ n a hp] at h
    cases h

/-- **C105.**  With every operation rounded, `lu_decomp` of a square matrix returns, or divides by a pivot that came out as zero. -/
theorem C105_outcome (r : Rounding) (A : Dense ℝ) (hA : A.WF) (hsq : A.cols = A.rows) :
    (∃ L U, @luDecomp ℝ _ _ r.sub r.mul r.div _ A = .ok (L, U)) ∨ @luDecomp ℝ _ _ r.sub r.mul r.div _ A = .error .divZero := by
  obtain ⟨n, hn⟩ : ∃ n : Nat, A.rows = n := ⟨A.rows.toNat, by have := hA.rows_nonneg; omega⟩
  have hE := hA.eq_ofFn
  rw [hsq, hn] at hE
  simp only [Int.toNat_natCast] at hE
  by_cases hp : ∀ i : Nat, i + 1 < n → (@luSeq ℝ _ _ r.sub r.mul r.div A.entry i).2 i i ≠ 0
  · exact .inl ⟨_, _, by rw [hE]; exact @luDecomp_ok ℝ _ _ r.sub r.mul r.div _ n A.entry hp⟩
  · exact .inr (by rw [hE]; exact @luDecomp_err ℝ _ _ r.sub r.mul r.div _ n A.entry hp)

/-- Factors turned into a perturbed row. -/
theorem fac_row {r : Rounding} {n : Nat} {p g : Int → ℝ} (hg : ∀ j, r.Fac n (g j)) (j : Int) : |p j * g j - p j| ≤ r.gamma n * |p j| := by
  have e : p j * g j - p j = (g j - 1) * p j := by ring
  rw [e, abs_mul]
  exact mul_le_mul_of_nonneg_right (hg j) (abs_nonneg _)

/-- **C105.**  With every operation rounded, the result of `forward_elim` solves exactly a system whose lower triangle differs from the
given one, entry by entry, by a relative error of at most `gamma (i + 1)` in row `i`. -/
theorem C105_forward (r : Rounding) (L : Dense ℝ) (hL : L.WF) (hsq : L.cols = L.rows) (b : List ℝ) (hb : (b.length : Int) = L.rows)
    (hd : ∀ i, 0 ≤ i → i < L.rows → L.entry i i ≠ 0) :
    ∃ x, @forwardElim ℝ _ r.sub r.mul r.div _ L b = .ok x ∧ (x.length : Int) = L.rows ∧
      ∃ L' : Int → Int → ℝ, (∀ i j, 0 ≤ i → i < L.rows → |L' i j - L.entry i j| ≤ r.gamma (i + 1).toNat * |L.entry i j|) ∧
        ∀ i, 0 ≤ i → i < L.rows → ∑ j ∈ Finset.Ico 0 (i + 1), L' i j * vecAt x j = vecAt b i := by
  obtain ⟨n, hn⟩ : ∃ n : Nat, L.rows = n := ⟨L.rows.toNat, by have := hL.rows_nonneg; omega⟩
  have hE := hL.eq_ofFn
  rw [hsq, hn] at hE
  simp only [Int.toNat_natCast] at hE
  have hbE := eq_vecFn_vecAt b
  rw [show b.length = n by omega] at hbE
  have e0 : @forwardElim ℝ _ r.sub r.mul r.div _ L b = @forwardElim ℝ _ r.sub r.mul r.div _ (Dense.ofFn n n L.entry) (vecFn n (vecAt b)) := by
    rw [← hE, ← hbE]
  rw [hn, e0]
  obtain ⟨f, e, hf⟩ := forwardElim_round r (n := n) L.entry (vecAt b) (by rwa [← hn])
  refine ⟨_, e, by simp, ?_⟩
  choose! g hg1 hg2 using hf
  refine ⟨fun i j => L.entry i j * g i j, fun i j h0 h1 => fac_row (p := L.entry i) (hg1 i h0 h1) j, ?_⟩
  intro i h0 h1
  rw [← hg2 i h0 h1]
  apply Finset.sum_congr rfl
  intro j hj
  have := Finset.mem_Ico.mp hj
  rw [(is_vecFn n f).vecAt_eq this.1 (by omega)]

/-- **C105.**  The same for `back_solve` and the upper triangle; row `i` of `n` has a relative error of at most `gamma (n - i)`. -/
theorem C105_back (r : Rounding) (U : Dense ℝ) (hU : U.WF) (hsq : U.cols = U.rows) (b : List ℝ) (hb : (b.length : Int) = U.rows)
    (hd : ∀ i, 0 ≤ i → i < U.rows → U.entry i i ≠ 0) :
    ∃ x, @backSolve ℝ _ r.sub r.mul r.div _ U b = .ok x ∧ (x.length : Int) = U.rows ∧
      ∃ U' : Int → Int → ℝ, (∀ i j, 0 ≤ i → i < U.rows → |U' i j - U.entry i j| ≤ r.gamma (U.rows - i).toNat * |U.entry i j|) ∧
        ∀ i, 0 ≤ i → i < U.rows → ∑ j ∈ Finset.Ico i U.rows, U' i j * vecAt x j = vecAt b i := by
  obtain ⟨n, hn⟩ : ∃ n : Nat, U.rows = n := ⟨U.rows.toNat, by have := hU.rows_nonneg; omega⟩
  have hE := hU.eq_ofFn
  rw [hsq, hn] at hE
  simp only [Int.toNat_natCast] at hE
  have hbE := eq_vecFn_vecAt b
  rw [show b.length = n by omega] at hbE
  have e0 : @backSolve ℝ _ r.sub r.mul r.div _ U b = @backSolve ℝ _ r.sub r.mul r.div _ (Dense.ofFn n n U.entry) (vecFn n (vecAt b)) := by
    rw [← hE, ← hbE]
  rw [hn, e0]
  obtain ⟨f, e, hf⟩ := backSolve_round r (n := n) U.entry (vecAt b) (by rwa [← hn])
  refine ⟨_, e, by simp, ?_⟩
  choose! g hg1 hg2 using hf
  refine ⟨fun i j => U.entry i j * g i j, fun i j h0 h1 => fac_row (p := U.entry i) (hg1 i h0 h1) j, ?_⟩
  intro i h0 h1
  rw [← hg2 i h0 h1]
  apply Finset.sum_congr rfl
  intro j hj
  have := Finset.mem_Ico.mp hj
  rw [(is_vecFn n f).vecAt_eq (by omega) this.2]

/-- Products of perturbed numbers. -/
theorem mul_pert {r : Rounding} {m n : Nat} {a b a' b' : ℝ} (ha : |a' - a| ≤ r.gamma m * |a|) (hb : |b' - b| ≤ r.gamma n * |b|) :
    |a' * b' - a * b| ≤ r.gamma (m + n) * (|a| * |b|) := by
  have e : a' * b' - a * b = (a' - a) * (b' - b) + (a' - a) * b + a * (b' - b) := by ring
  rw [e, ← r.gamma_add]
  have h1 : |(a' - a) * (b' - b)| ≤ (r.gamma m * |a|) * (r.gamma n * |b|) := by
    rw [abs_mul]; exact mul_le_mul ha hb (abs_nonneg _) (mul_nonneg (r.gamma_nonneg m) (abs_nonneg _))
  have h2 : |(a' - a) * b| ≤ r.gamma m * |a| * |b| := by rw [abs_mul]; exact mul_le_mul_of_nonneg_right ha (abs_nonneg _)
  have h3 : |a * (b' - b)| ≤ |a| * (r.gamma n * |b|) := by rw [abs_mul]; exact mul_le_mul_of_nonneg_left hb (abs_nonneg _)
  have h4 := abs_add_le ((a' - a) * (b' - b) + (a' - a) * b) (a * (b' - b))
  have h5 := abs_add_le ((a' - a) * (b' - b)) ((a' - a) * b)
  nlinarith

/-- **C105.**  With every operation rounded, `solve_lu` with the factors `lu_decomp` returned solves exactly, for every `b`, a system whose
matrix differs from the given one by at most `gamma (3 n)` times `|L| |U|`, unless the last pivot is zero. -/
theorem C105_solve (r : Rounding) (A : Dense ℝ) (hA : A.WF) (hsq : A.cols = A.rows) (L U : Dense ℝ)
    (h : @luDecomp ℝ _ _ r.sub r.mul r.div _ A = .ok (L, U)) (b : List ℝ) (hb : (b.length : Int) = A.rows)
    (hlast : ∀ i, i + 1 = A.rows → U.entry i i ≠ 0) :
    ∃ x, @solveLu ℝ _ r.sub r.mul r.div _ L U b = .ok x ∧ (x.length : Int) = A.rows ∧
      ∃ A' : Int → Int → ℝ, (∀ i j, 0 ≤ i → i < A.rows → 0 ≤ j → j < A.rows →
          |A' i j - A.entry i j| ≤ r.gamma (3 * A.rows.toNat) * ∑ t ∈ Finset.Ico 0 (min i j + 1), |L.entry i t| * |U.entry t j|) ∧
        ∀ i, 0 ≤ i → i < A.rows → matVec A.rows A' (vecAt x) i = vecAt b i := by
  obtain ⟨eL, eU, hl, hz, hp⟩ := C105_factor r A hA hsq L U h
  obtain ⟨y, ey, hy, L', hL1, hL2⟩ := C105_forward r L eL.wf (by rw [eL.rows_eq, eL.cols_eq]) b (by rw [eL.rows_eq, hb]) (by
    intro i h0 h1
    rw [eL.rows_eq] at h1
    rw [hl.1 i h0 h1]
    exact one_ne_zero)
  rw [eL.rows_eq] at hy hL1 hL2
  obtain ⟨x, ex, hx, U', hU1, hU2⟩ := C105_back r U eU.wf (by rw [eU.rows_eq, eU.cols_eq]) y (by rw [eU.rows_eq, hy]) (by
    intro i h0 h1
    rw [eU.rows_eq] at h1
    by_cases hi : i + 1 < A.rows
    · exact hz i h0 hi
    · exact hlast i (by omega))
  rw [eU.rows_eq] at hx hU1 hU2
  unfold solveLu
  refine ⟨x, by rw [ey, ok_bind]; exact ex, hx, fun i j => ∑ t ∈ Finset.Ico 0 (min i j + 1), L' i t * U' t j, ?_, ?_⟩
  · intro i j h0 h1 h2 h3
    beta_reduce
    have hQ := hp i j h0 h1 h2 h3
    have hP : |∑ t ∈ Finset.Ico 0 (min i j + 1), L' i t * U' t j - ∑ t ∈ Finset.Ico 0 (min i j + 1), L.entry i t * U.entry t j|
        ≤ r.gamma (2 * A.rows.toNat) * ∑ t ∈ Finset.Ico 0 (min i j + 1), |L.entry i t| * |U.entry t j| := by
      rw [← Finset.sum_sub_distrib, Finset.mul_sum]
      refine (Finset.abs_sum_le_sum_abs _ _).trans (Finset.sum_le_sum ?_)
      intro t ht
      have ht := Finset.mem_Ico.mp ht
      refine (mul_pert (hL1 i t h0 h1) (hU1 t j ht.1 (by omega))).trans ?_
      exact mul_le_mul_of_nonneg_right (r.gamma_mono (by omega)) (by positivity)
    have hS : 0 ≤ ∑ t ∈ Finset.Ico 0 (min i j + 1), |L.entry i t| * |U.entry t j| := Finset.sum_nonneg (fun _ _ => by positivity)
    have hg := r.gamma_add_le (2 * A.rows.toNat) A.rows.toNat
    rw [show 2 * A.rows.toNat + A.rows.toNat = 3 * A.rows.toNat by omega] at hg
    have hm := r.gamma_mono (show i.toNat ≤ A.rows.toNat by omega)
    have ht := abs_sub_le (∑ t ∈ Finset.Ico 0 (min i j + 1), L' i t * U' t j) (∑ t ∈ Finset.Ico 0 (min i j + 1), L.entry i t * U.entry t j) (A.entry i j)
    nlinarith
  · intro i h0 h1
    unfold matVec
    rw [← hL2 i h0 h1]
    have e1 : ∀ t ∈ Finset.Ico 0 (i + 1), L' i t * vecAt y t = ∑ j ∈ Finset.Ico 0 A.rows, if t ≤ j then L' i t * U' t j * vecAt x j else 0 := by
      intro t ht
      have ht := Finset.mem_Ico.mp ht
      rw [← hU2 t ht.1 (by omega), Finset.mul_sum, ← Finset.sum_filter]
      have : (Finset.Ico 0 A.rows).filter (fun j => t ≤ j) = Finset.Ico t A.rows := by
        ext j; simp only [Finset.mem_filter, Finset.mem_Ico]; omega
      rw [this]
      exact Finset.sum_congr rfl (fun j _ => by ring)
    rw [Finset.sum_congr rfl e1, Finset.sum_comm]
    apply Finset.sum_congr rfl
    intro j hj
    have hj := Finset.mem_Ico.mp hj
    rw [← Finset.sum_filter, Finset.sum_mul]
    have : (Finset.Ico 0 (i + 1)).filter (fun t => t ≤ j) = Finset.Ico 0 (min i j + 1) := by
      ext t; simp only [Finset.mem_filter, Finset.mem_Ico]; omega
    rw [this]

/-- **C105.**  So the computed solution leaves a residual of at most `gamma (3 n) |L| |U| |x|`. -/
theorem C105_residual (r : Rounding) (A : Dense ℝ) (hA : A.WF) (hsq : A.cols = A.rows) (L U : Dense ℝ)
    (h : @luDecomp ℝ _ _ r.sub r.mul r.div _ A = .ok (L, U)) (b : List ℝ) (hb : (b.length : Int) = A.rows)
    (hlast : ∀ i, i + 1 = A.rows → U.entry i i ≠ 0) :
    ∃ x, @solveLu ℝ _ r.sub r.mul r.div _ L U b = .ok x ∧ (x.length : Int) = A.rows ∧
      ∀ i, 0 ≤ i → i < A.rows → |matVec A.rows A.entry (vecAt x) i - vecAt b i| ≤ r.gamma (3 * A.rows.toNat) *
        ∑ j ∈ Finset.Ico 0 A.rows, (∑ t ∈ Finset.Ico 0 (min i j + 1), |L.entry i t| * |U.entry t j|) * |vecAt x j| := by
  obtain ⟨x, ex, hx, A', h1, h2⟩ := C105_solve r A hA hsq L U h b hb hlast
  refine ⟨x, ex, hx, ?_⟩
  intro i i0 i1
  rw [← h2 i i0 i1, Finset.mul_sum]
  unfold matVec
  rw [← Finset.sum_sub_distrib]
  refine (Finset.abs_sum_le_sum_abs _ _).trans (Finset.sum_le_sum ?_)
  intro j hj
  have hj := Finset.mem_Ico.mp hj
  rw [← sub_mul, abs_mul, abs_sub_comm, ← mul_assoc]
  exact mul_le_mul_of_nonneg_right (h1 i j i0 i1 hj.1 hj.2) (abs_nonneg _)

end Example

/-- Rounding to nearest, by the mantissa. -/
theorem nearest_eq (p : Nat) {x : ℝ} (e m : Int) (hx : 0 < x) (h1 : (2 : ℝ) ^ e ≤ x) (h2 : x < (2 : ℝ) ^ (e + 1))
    (h3 : |x / 2 ^ (e + 1 - p) - m| < 1 / 2) : nearestFn p x = m * 2 ^ (e + 1 - p) := by
  have hlog : Int.log 2 |x| = e := by
    rw [abs_of_pos hx]
    apply le_antisymm
    · rw [← Int.lt_add_one_iff, ← Int.lt_zpow_iff_log_lt (by norm_num) hx]
      exact_mod_cast h2
    · rw [← Int.zpow_le_iff_le_log (by norm_num) hx]
      exact_mod_cast h1
  unfold nearestFn
  rw [if_neg hx.ne', hlog]
  congr 2
  have h := abs_lt.1 h3
  rw [round_eq, Int.floor_eq_iff]
  constructor <;> linarith [h.1, h.2]

namespace Example

/-- One by 49 and back, in double precision. -/
theorem one_49 : nearestFn 53 (nearestFn 53 (1 / 49) * 49) = 9007199254740991 * 2 ^ (-53 : Int) := by
  rw [nearest_eq 53 (x := 1 / 49) (-6) 5882252574524729 (by norm_num) (by norm_num) (by norm_num) (by norm_num [abs_lt])]
  have := nearest_eq 53 (x := (5882252574524729 : Int) * 2 ^ ((-6 : Int) + 1 - (53 : Nat)) * 49) (-1) 9007199254740991 (by norm_num) (by norm_num) (by norm_num) (by norm_num [abs_lt])
  rw [this]
  norm_num

/-- **C105.**  In double precision `U` is not upper triangular: the entries under the diagonal are computed, not set, and keep rounding
errors.  (The solves do not read them.) -/
theorem C105_not_upper : ∃ A : Dense ℝ, A.WF ∧ A.cols = A.rows ∧
    ∃ L U, @luDecomp ℝ _ _ (Rounding.nearest 53 (by norm_num)).sub (Rounding.nearest 53 (by norm_num)).mul (Rounding.nearest 53 (by norm_num)).div _ A = .ok (L, U) ∧
      ¬ Upper A.rows U.entry ∧ ∀ i, 0 ≤ i → i < A.rows → U.entry i i ≠ 0 := by
  obtain ⟨r, hr⟩ : ∃ r, r = Rounding.nearest 53 (by norm_num) := ⟨_, rfl⟩
  rw [← hr]
  have hrnd : r.rnd = nearestFn 53 := by rw [hr]; rfl
  obtain ⟨a, ha⟩ : ∃ a : Int → Int → ℝ, a = fun i j => if j = 0 then (if i = 0 then 49 else 1) else (if i = 0 then 0 else 1) := ⟨_, rfl⟩
  have h49 : a 0 0 = 49 := by rw [ha]; simp
  have h10 : a 1 0 = 1 := by rw [ha]; simp
  have h01 : a 0 1 = 0 := by rw [ha]; simp
  have h11 : a 1 1 = 1 := by rw [ha]; simp
  have hI := Dense.is_ofFn 2 2 a
  refine ⟨Dense.ofFn 2 2 a, hI.wf, by rw [hI.cols_eq, hI.rows_eq], _, _, @luDecomp_ok ℝ _ _ r.sub r.mul r.div _ 2 a ?_, ?_⟩
  · intro i hi
    obtain rfl : i = 0 := by omega
    change a 0 0 ≠ 0
    rw [h49]; norm_num
  have eU := Dense.is_ofFn 2 2 (@luSeq ℝ _ _ r.sub r.mul r.div a 2).2
  have gU : ∀ i j : Int, 0 ≤ i → i < (2 : Nat) → 0 ≤ j → j < (2 : Nat) →
      (Dense.ofFn 2 2 (@luSeq ℝ _ _ r.sub r.mul r.div a 2).2).entry i j = (@luSeq ℝ _ _ r.sub r.mul r.div a 2).2 i j := by
    intro i j h0 h1 h2 h3; unfold Dense.entry; rw [eU.get_eq i j h0 h1 h2 h3]
  have u0 : ∀ c, (@luSeq ℝ _ _ r.sub r.mul r.div a 2).2 0 c = a 0 c := fun c => @luSeq_row ℝ _ _ r.sub r.mul r.div a 0 2 (by omega) c
  have u1 : ∀ c, 0 ≤ c → (@luSeq ℝ _ _ r.sub r.mul r.div a 2).2 1 c = r.rnd (a 1 c - r.rnd (r.rnd (a 1 0 / a 0 0) * a 0 c)) := by
    intro c hc
    refine (@luSeq_row ℝ _ _ r.sub r.mul r.div a 1 2 (by omega) c).trans ?_
    change @nextU ℝ r.sub r.mul r.div 0 a 1 c = _
    unfold nextU
    rw [if_pos ⟨by omega, hc⟩]
    rfl
  rw [hI.rows_eq]
  constructor
  · intro hu
    have h1 := hu 1 0 (by norm_num) (by norm_num) (by norm_num)
    rw [gU 1 0 (by norm_num) (by norm_num) (by norm_num) (by norm_num), u1 0 (by norm_num), h10, h49, hrnd, one_49] at h1
    have h2 := r.close' ((1 : ℝ) - 9007199254740991 * 2 ^ (-53 : Int))
    rw [hrnd, h1] at h2
    norm_num at h2
  · intro i h0 h1
    rw [gU i i h0 h1 h0 h1]
    push_cast at h1
    obtain rfl | rfl : i = 0 ∨ i = 1 := by omega
    · rw [u0, h49]; norm_num
    · rw [u1 1 (by norm_num), h11, h10, h49, h01, mul_zero, r.rnd_zero, sub_zero, hrnd, (nearest_one 53 (by norm_num)).1]
      exact one_ne_zero

/-- C105: without rounding nothing is lost. -/
example : Rounding.exact.gamma 7 = 0 ∧ (Rounding.nearest 53 (by norm_num)).gamma 3 ≠ 0 := by
  constructor
  · simp [Rounding.gamma, Rounding.exact]
  · change (1 + (1 / 2 : ℝ) ^ 53) ^ 3 - 1 ≠ 0
    norm_num

end Example
end Linalg
