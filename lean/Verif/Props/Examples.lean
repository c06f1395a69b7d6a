import Verif.Proof.Qr
import Verif.Props.DenseBasic
import Mathlib.Algebra.Order.Ring.Rat
import Mathlib.Algebra.Field.Rat
import Mathlib.Data.Real.Sqrt

/-!
# The example programs (C47, C67)
-/

namespace Linalg
open Cpp

/-- `l` is unit lower triangular (`n × n`). -/
def UnitLower {K : Type} [Zero K] [One K] (n : Int) (l : Int → Int → K) : Prop :=
  (∀ i, 0 ≤ i → i < n → l i i = 1) ∧ ∀ i j, 0 ≤ i → i < j → j < n → l i j = 0

/-- `u` is upper triangular (`n × n`). -/
def Upper {K : Type} [Zero K] (n : Int) (u : Int → Int → K) : Prop := ∀ i j, 0 ≤ j → j < i → i < n → u i j = 0

/-- `a = l u` (`n × n`). -/
def IsProd {K : Type} [NonUnitalNonAssocSemiring K] (n : Int) (a l u : Int → Int → K) : Prop :=
  ∀ i j, 0 ≤ i → i < n → 0 ≤ j → j < n → ∑ t ∈ Finset.Ico 0 n, l i t * u t j = a i j

namespace Example
variable {K : Type} [Field K] [DecidableEq K]

omit [DecidableEq K] in
theorem ofFn_entry {m n : Nat} {f : Int → Int → K} {i j : Int} (h0 : 0 ≤ i) (h1 : i < m) (h2 : 0 ≤ j) (h3 : j < n) :
    (Dense.ofFn m n f).entry i j = f i j := by
  unfold Dense.entry
  rw [Dense.get_ofFn h0 h1 h2 h3]

/-- C47: if `lu_decomp` returns, it returns a unit lower triangular `L` and an upper triangular `U` with `L U = A`; only the
last pivot may be zero. -/
theorem C47_factor (A : Dense K) (hA : A.WF) (hsq : A.cols = A.rows) (L U : Dense K) (h : luDecomp A = .ok (L, U)) :
    L.Is A.rows A.rows L.entry ∧ U.Is A.rows A.rows U.entry ∧ UnitLower A.rows L.entry ∧ Upper A.rows U.entry ∧
      IsProd A.rows A.entry L.entry U.entry ∧ ∀ i, 0 ≤ i → i + 1 < A.rows → U.entry i i ≠ 0 := by
  obtain ⟨n, hn⟩ : ∃ n : Nat, A.rows = n := ⟨A.rows.toNat, by have := hA.rows_nonneg; omega⟩
  have hE := hA.eq_ofFn
  rw [hsq, hn] at hE
  simp only [Int.toNat_natCast] at hE
  obtain ⟨a, ha⟩ : ∃ a, a = A.entry := ⟨_, rfl⟩
  rw [← ha] at hE
  rw [hn, ← ha]
  by_cases hp : ∀ i : Nat, i + 1 < n → (luSeq a i).2 i i ≠ 0
  · rw [hE, luDecomp_ok a hp] at h
    simp only [Except.ok.injEq, Prod.mk.injEq] at h
    obtain ⟨rfl, rfl⟩ := h
    have I := luInv a hp n (le_refl _)
    have eL := Dense.is_ofFn n n (luSeq a n).1
    have eU := Dense.is_ofFn n n (luSeq a n).2
    have gL : ∀ i j : Int, 0 ≤ i → i < n → 0 ≤ j → j < n →
        (Dense.ofFn n n (luSeq a n).1).entry i j = (luSeq a n).1 i j := by
      intro i j h0 h1 h2 h3; unfold Dense.entry; rw [eL.get_eq i j h0 h1 h2 h3]
    have gU : ∀ i j : Int, 0 ≤ i → i < n → 0 ≤ j → j < n →
        (Dense.ofFn n n (luSeq a n).2).entry i j = (luSeq a n).2 i j := by
      intro i j h0 h1 h2 h3; unfold Dense.entry; rw [eU.get_eq i j h0 h1 h2 h3]
    refine ⟨eL.congr (fun i j h0 h1 h2 h3 => (gL i j h0 h1 h2 h3).symm),
      eU.congr (fun i j h0 h1 h2 h3 => (gU i j h0 h1 h2 h3).symm), ⟨?_, ?_⟩, ?_, ?_, ?_⟩
    · intro i h0 h1
      rw [gL i i h0 h1 h0 h1, I.l_diag i h0, if_pos h1]
    · intro i j h0 h1 h2
      rw [gL i j h0 (by omega) (by omega) h2]
      exact I.l_zero i j (by omega) (by omega)
    · intro i j h0 h1 h2
      rw [gU i j (by omega) h2 h0 (by omega)]
      exact I.upper i j h0 (by omega) h1 h2
    · intro i j h0 h1 h2 h3
      have := I.prod i j h0 h1 h2 h3
      rw [if_neg (by omega), add_zero] at this
      rw [← this]
      apply Finset.sum_congr rfl
      intro t ht
      have ht := Finset.mem_Ico.mp ht
      rw [gL i t h0 h1 ht.1 ht.2, gU t j ht.1 ht.2 h2 h3]
    · intro i h0 h1
      obtain ⟨i, rfl⟩ : ∃ k : Nat, i = k := ⟨i.toNat, by omega⟩
      rw [gU i i h0 (by omega) h0 (by omega), luSeq_row a i n (by omega)]
      exact hp i (by omega)
  · rw [hE, luDecomp_err a hp] at h
    cases h

/-- C47: `lu_decomp` returns exactly if the matrix has a factorisation into a unit lower triangular and an upper triangular
matrix whose pivots, all but the last, are not zero; otherwise it divides by zero. -/
theorem C47_succeeds (A : Dense K) (hA : A.WF) (hsq : A.cols = A.rows) :
    ((∃ l u, UnitLower A.rows l ∧ Upper A.rows u ∧ IsProd A.rows A.entry l u ∧
      ∀ i, 0 ≤ i → i + 1 < A.rows → u i i ≠ 0) → ∃ L U, luDecomp A = .ok (L, U)) ∧
    ((¬ ∃ l u, UnitLower A.rows l ∧ Upper A.rows u ∧ IsProd A.rows A.entry l u ∧
      ∀ i, 0 ≤ i → i + 1 < A.rows → u i i ≠ 0) → luDecomp A = .error .divZero) := by
  obtain ⟨n, hn⟩ : ∃ n : Nat, A.rows = n := ⟨A.rows.toNat, by have := hA.rows_nonneg; omega⟩
  have hE := hA.eq_ofFn
  rw [hsq, hn] at hE
  simp only [Int.toNat_natCast] at hE
  constructor
  · rintro ⟨l, u, ⟨hd, hl⟩, hu, hp, hz⟩
    rw [hn] at hd hl hu hp hz
    refine ⟨_, _, (congrArg luDecomp hE).trans (luDecomp_ok A.entry ?_)⟩
    intro i hi
    have := luSeq_of_factor A.entry l u (fun r c h0 _ h2 h3 => hl r c h0 h2 h3) hd hu hz hp i (by omega) i i
      (by omega) (by omega) (by omega) (by omega)
    rw [if_neg (by omega), Finset.sum_eq_single (i : Int), hd i (by omega) (by omega), one_mul] at this
    · rw [this]
      exact hz i (by omega) (by omega)
    · intro t ht hne
      have := Finset.mem_Ico.mp ht
      rw [hl i t (by omega) (by omega) (by omega), zero_mul]
    · intro hh
      exact absurd (Finset.mem_Ico.mpr (by omega)) hh
  · intro h
    by_cases hp : ∀ i : Nat, i + 1 < n → (luSeq A.entry i).2 i i ≠ 0
    · exfalso
      apply h
      obtain ⟨_, _, h1, h2, h3, h4⟩ := C47_factor A hA hsq _ _ ((congrArg luDecomp hE).trans (luDecomp_ok A.entry hp))
      exact ⟨_, _, h1, h2, h3, h4⟩
    · exact (congrArg luDecomp hE).trans (luDecomp_err A.entry hp)

/-- C47: any factorisation with non-zero pivots is the one returned. -/
theorem C47_unique (A : Dense K) (hA : A.WF) (hsq : A.cols = A.rows) (L U : Dense K) (h : luDecomp A = .ok (L, U))
    (l u : Int → Int → K) (hl : UnitLower A.rows l) (hu : Upper A.rows u) (hp : IsProd A.rows A.entry l u)
    (hz : ∀ i, 0 ≤ i → i + 1 < A.rows → u i i ≠ 0) :
    L.Is A.rows A.rows l ∧ U.Is A.rows A.rows u := by
  obtain ⟨eL, eU, ⟨kd, kl⟩, ku, kp, kz⟩ := C47_factor A hA hsq L U h
  obtain ⟨n, hn⟩ : ∃ n : Nat, A.rows = n := ⟨A.rows.toNat, by have := hA.rows_nonneg; omega⟩
  rw [hn] at hl hu hp hz eL eU kd kl ku kp kz ⊢
  obtain ⟨hd, hl⟩ := hl
  have same : ∀ i j : Int, 0 ≤ i → i < n → 0 ≤ j → j < n → U.entry i j = u i j := by
    intro i j h0 h1 h2 h3
    have e1 := luSeq_of_factor A.entry l u (fun r c h0 _ h2 h3 => hl r c h0 h2 h3) hd hu hz hp n (le_refl _) i j h0 h1 h2 h3
    have e2 := luSeq_of_factor A.entry L.entry U.entry (fun r c h0 _ h2 h3 => kl r c h0 h2 h3) kd ku kz kp n (le_refl _)
      i j h0 h1 h2 h3
    rw [if_pos h1] at e1 e2
    rw [← e1, ← e2]
  refine ⟨eL.congr ?_, eU.congr same⟩
  -- the columns of `L`, one after the other
  have col : ∀ c : Nat, ∀ i j : Int, 0 ≤ i → i < n → 0 ≤ j → j < c → c ≤ n → L.entry i j = l i j := by
    intro c
    induction c with
    | zero => intro i j _ _ _ _ _; omega
    | succ c ih =>
      intro i j h0 h1 h2 h3 h4
      by_cases hj : j < c
      · exact ih i j h0 h1 h2 hj (by omega)
      · obtain rfl : j = c := by push_cast at h3; omega
        by_cases hij : i < (c : Int)
        · rw [kl i c h0 hij (by omega), hl i c h0 hij (by omega)]
        · by_cases hic : i = (c : Int)
          · rw [hic, kd c (by omega) (by omega), hd c (by omega) (by omega)]
          · have e1 := kp i c h0 h1 (by omega) (by omega)
            have e2 := hp i c h0 h1 (by omega) (by omega)
            rw [← e2] at e1
            have cut : ∀ x v : Int → Int → K, (∀ t : Int, (c : Int) < t → t < n → v t c = 0) →
                ∑ t ∈ Finset.Ico 0 (n : Int), x i t * v t c = ∑ t ∈ Finset.Ico 0 ((c : Int) + 1), x i t * v t c := by
              intro x v hv
              symm
              apply Finset.sum_subset
              · intro t ht
                have := Finset.mem_Ico.mp ht
                exact Finset.mem_Ico.mpr (by omega)
              · intro t ht hnt
                have := Finset.mem_Ico.mp ht
                have h' : ¬ (0 ≤ t ∧ t < (c : Int) + 1) := fun hh => hnt (Finset.mem_Ico.mpr hh)
                rw [hv t (by omega) (by omega), mul_zero]
            rw [cut _ _ (fun t h5 h6 => ku t c (by omega) h5 h6), cut _ _ (fun t h5 h6 => hu t c (by omega) h5 h6),
              sum_Ico_succ _ (by omega), sum_Ico_succ _ (by omega)] at e1
            have e3 : ∑ t ∈ Finset.Ico 0 (c : Int), L.entry i t * U.entry t c = ∑ t ∈ Finset.Ico 0 (c : Int), l i t * u t c := by
              apply Finset.sum_congr rfl
              intro t ht
              have := Finset.mem_Ico.mp ht
              rw [ih i t h0 h1 this.1 this.2 (by omega), same t c this.1 (by omega) (by omega) (by omega)]
            rw [e3, same c c (by omega) (by omega) (by omega) (by omega)] at e1
            have e4 := add_left_cancel e1
            exact mul_right_cancel₀ (hz c (by omega) (by omega)) e4
  intro i j h0 h1 h2 h3
  exact col n i j h0 h1 h2 h3 (le_refl _)

/-- A matrix that meets the hypotheses, and one (a zero pivot) for which the factorisation does not exist. -/
example : (⟨2, 2, [4, 2, 1, 3]⟩ : Dense Rat).WF ∧
    luDecomp (⟨2, 2, [4, 2, 1, 3]⟩ : Dense Rat) = .ok (⟨2, 2, [1, 1/2, 0, 1]⟩, ⟨2, 2, [4, 0, 1, 5/2]⟩) ∧
    luDecomp (⟨2, 2, [0, 1, 1, 0]⟩ : Dense Rat) = .error .divZero := by decide +kernel

/-- C47: `forward_elim` solves with the lower triangle of the matrix if its diagonal has no zero; otherwise it divides by
zero. -/
theorem C47_forward (L : Dense K) (hL : L.WF) (hsq : L.cols = L.rows) (b : List K) (hb : (b.length : Int) = L.rows) :
    ((∀ i, 0 ≤ i → i < L.rows → L.entry i i ≠ 0) → ∃ x, forwardElim L b = .ok x ∧ (x.length : Int) = L.rows ∧
      ∀ i, 0 ≤ i → i < L.rows → ∑ j ∈ Finset.Ico 0 (i + 1), L.entry i j * vecAt x j = vecAt b i) ∧
    ((∃ i, 0 ≤ i ∧ i < L.rows ∧ L.entry i i = 0) → forwardElim L b = .error .divZero) := by
  obtain ⟨n, hn⟩ : ∃ n : Nat, L.rows = n := ⟨L.rows.toNat, by have := hL.rows_nonneg; omega⟩
  have hE := hL.eq_ofFn
  rw [hsq, hn] at hE
  simp only [Int.toNat_natCast] at hE
  have hbE := eq_vecFn_vecAt b
  rw [show b.length = n by omega] at hbE
  have e0 : forwardElim L b = forwardElim (Dense.ofFn n n L.entry) (vecFn n (vecAt b)) := by rw [← hE, ← hbE]
  rw [hn, e0]
  constructor
  · intro hd
    obtain ⟨f, e, hf⟩ := forwardElim_ok L.entry (vecAt b) hd
    refine ⟨_, e, by simp, ?_⟩
    intro i h0 h1
    rw [← hf i h0 h1]
    apply Finset.sum_congr rfl
    intro j hj
    have := Finset.mem_Ico.mp hj
    rw [(is_vecFn n f).vecAt_eq this.1 (by omega)]
  · exact forwardElim_err L.entry (vecAt b)

/-- C47: `back_solve` solves with the upper triangle of the matrix if its diagonal has no zero; otherwise it divides by
zero. -/
theorem C47_back (U : Dense K) (hU : U.WF) (hsq : U.cols = U.rows) (b : List K) (hb : (b.length : Int) = U.rows) :
    ((∀ i, 0 ≤ i → i < U.rows → U.entry i i ≠ 0) → ∃ x, backSolve U b = .ok x ∧ (x.length : Int) = U.rows ∧
      ∀ i, 0 ≤ i → i < U.rows → ∑ j ∈ Finset.Ico i U.rows, U.entry i j * vecAt x j = vecAt b i) ∧
    ((∃ i, 0 ≤ i ∧ i < U.rows ∧ U.entry i i = 0) → backSolve U b = .error .divZero) := by
  obtain ⟨n, hn⟩ : ∃ n : Nat, U.rows = n := ⟨U.rows.toNat, by have := hU.rows_nonneg; omega⟩
  have hE := hU.eq_ofFn
  rw [hsq, hn] at hE
  simp only [Int.toNat_natCast] at hE
  have hbE := eq_vecFn_vecAt b
  rw [show b.length = n by omega] at hbE
  have e0 : backSolve U b = backSolve (Dense.ofFn n n U.entry) (vecFn n (vecAt b)) := by rw [← hE, ← hbE]
  rw [hn, e0]
  constructor
  · intro hd
    obtain ⟨f, e, hf⟩ := backSolve_ok U.entry (vecAt b) hd
    refine ⟨_, e, by simp, ?_⟩
    intro i h0 h1
    rw [← hf i h0 h1]
    apply Finset.sum_congr rfl
    intro j hj
    have := Finset.mem_Ico.mp hj
    rw [(is_vecFn n f).vecAt_eq (by omega) this.2]
  · exact backSolve_err U.entry (vecAt b)

omit [DecidableEq K] in
/-- The part of a product with a triangular matrix that the triangle does not hold is zero. -/
theorem upper_sum {n : Int} {u : Int → Int → K} (hu : Upper n u) (f : Int → K) {i : Int} (h0 : 0 ≤ i) (h1 : i < n) :
    ∑ j ∈ Finset.Ico 0 n, u i j * f j = ∑ j ∈ Finset.Ico i n, u i j * f j := by
  symm
  apply Finset.sum_subset
  · intro t ht
    have := Finset.mem_Ico.mp ht
    exact Finset.mem_Ico.mpr (by omega)
  · intro t ht hnt
    have := Finset.mem_Ico.mp ht
    have h' : ¬ (i ≤ t ∧ t < n) := fun hh => hnt (Finset.mem_Ico.mpr hh)
    rw [hu i t (by omega) (by omega) h1, zero_mul]

omit [DecidableEq K] in
theorem lower_sum {n : Int} {l : Int → Int → K} (hl : UnitLower n l) (f : Int → K) {i : Int} (h0 : 0 ≤ i) (h1 : i < n) :
    ∑ j ∈ Finset.Ico 0 n, l i j * f j = ∑ j ∈ Finset.Ico 0 (i + 1), l i j * f j := by
  symm
  apply Finset.sum_subset
  · intro t ht
    have := Finset.mem_Ico.mp ht
    exact Finset.mem_Ico.mpr (by omega)
  · intro t ht hnt
    have := Finset.mem_Ico.mp ht
    have h' : ¬ (0 ≤ t ∧ t < i + 1) := fun hh => hnt (Finset.mem_Ico.mpr hh)
    rw [hl.2 i t (by omega) (by omega) (by omega), zero_mul]

/-- C47: with the factors `lu_decomp` returned, `solve_lu` returns `x` with `A x = b`, for every `b`, unless the last pivot is
zero; then it divides by zero. -/
theorem C47_solve (A : Dense K) (hA : A.WF) (hsq : A.cols = A.rows) (L U : Dense K) (h : luDecomp A = .ok (L, U))
    (b : List K) (hb : (b.length : Int) = A.rows) :
    ((∀ i, i + 1 = A.rows → U.entry i i ≠ 0) → ∃ x, solveLu L U b = .ok x ∧ (x.length : Int) = A.rows ∧
      ∀ i, 0 ≤ i → i < A.rows → matVec A.rows A.entry (vecAt x) i = vecAt b i) ∧
    ((∃ i, 0 ≤ i ∧ i + 1 = A.rows ∧ U.entry i i = 0) → solveLu L U b = .error .divZero) := by
  obtain ⟨eL, eU, hl, hu, hp, hz⟩ := C47_factor A hA hsq L U h
  obtain ⟨y, ey, hy, hy2⟩ := (C47_forward L eL.wf (by rw [eL.rows_eq, eL.cols_eq]) b (by rw [eL.rows_eq, hb])).1 (by
    intro i h0 h1
    rw [eL.rows_eq] at h1
    rw [hl.1 i h0 h1]
    exact one_ne_zero)
  rw [eL.rows_eq] at hy hy2
  have hB := C47_back U eU.wf (by rw [eU.rows_eq, eU.cols_eq]) y (by rw [eU.rows_eq, hy])
  rw [eU.rows_eq] at hB
  unfold solveLu
  rw [ey, ok_bind]
  constructor
  · intro hlast
    obtain ⟨x, ex, hx, hx2⟩ := hB.1 (by
      intro i h0 h1
      by_cases hi : i + 1 < A.rows
      · exact hz i h0 hi
      · exact hlast i (by omega))
    refine ⟨x, ex, hx, ?_⟩
    intro i h0 h1
    rw [← hy2 i h0 h1, ← lower_sum hl _ h0 h1]
    have e1 : ∀ t ∈ Finset.Ico 0 A.rows, L.entry i t * vecAt y t
        = ∑ j ∈ Finset.Ico 0 A.rows, L.entry i t * U.entry t j * vecAt x j := by
      intro t ht
      have ht := Finset.mem_Ico.mp ht
      rw [← hx2 t ht.1 ht.2, ← upper_sum hu _ ht.1 ht.2, Finset.mul_sum]
      exact Finset.sum_congr rfl (fun j _ => by ring)
    rw [Finset.sum_congr rfl e1, Finset.sum_comm]
    unfold matVec
    apply Finset.sum_congr rfl
    intro j hj
    have hj := Finset.mem_Ico.mp hj
    rw [← hp i j h0 h1 hj.1 hj.2, Finset.sum_mul]
  · rintro ⟨i, h0, h1, h2⟩
    exact hB.2 ⟨i, h0, by omega, h2⟩

/-- A solve. -/
example : solveLu (⟨2, 2, [1, 1/2, 0, 1]⟩ : Dense Rat) ⟨2, 2, [4, 0, 1, 5/2]⟩ [6, 8] = .ok [1, 2] ∧
    (4 : Rat) * 1 + 1 * 2 = 6 ∧ (2 : Rat) * 1 + 3 * 2 = 8 := by decide +kernel

/-- A singular matrix whose factors exist. -/
example : luDecomp (⟨2, 2, [1, 2, 2, 4]⟩ : Dense Rat) = .ok (⟨2, 2, [1, 2, 0, 1]⟩, ⟨2, 2, [1, 0, 2, 0]⟩) ∧
    solveLu (⟨2, 2, [1, 2, 0, 1]⟩ : Dense Rat) ⟨2, 2, [1, 0, 2, 0]⟩ [1, 1] = .error .divZero := by decide +kernel

end Example

/-! ## QR -/

/-- The columns of `q` (`m × n`) are orthonormal. -/
def OrthoCols {K : Type} [NonAssocSemiring K] (m n : Int) (q : Int → Int → K) : Prop :=
  ∀ b c, 0 ≤ b → b < n → 0 ≤ c → c < n → dotFn m (fun t => q t b) (fun t => q t c) = if b = c then 1 else 0

/-- The columns of `a` (`m × n`) are linearly independent. -/
def IndepCols {K : Type} [NonAssocSemiring K] (m n : Int) (a : Int → Int → K) : Prop :=
  ∀ c : Int → K, (∀ t, 0 ≤ t → t < m → matVec n a c t = 0) → ZeroOn n c

namespace Example
variable {K : Type} [Field K] [LinearOrder K] [IsStrictOrderedRing K]

omit [LinearOrder K] [IsStrictOrderedRing K] in
/-- The rest is a combination of the columns with coefficient 1 at the last. -/
theorem qrRest_comb {m : Nat} {a q r : Int → Int → K} {i : Nat} (I : QrInv m a q r i) :
    ∃ c : Int → K, c i = 1 ∧ (∀ k, (i : Int) < k → c k = 0) ∧
      ∀ t, qrRest m a q i i t = ∑ k ∈ Finset.Ico 0 ((i : Int) + 1), a t k * c k := by
  have hsp := fun j : Int => fun (h0 : 0 ≤ j) (h1 : j < i) => I.span j h0 h1
  choose c hc1 hc2 using hsp
  refine ⟨fun k => (if k = (i : Int) then 1 else 0) - ∑ j ∈ (Finset.Ico 0 (i : Int)).attach, qrCoef m a q i j.1 *
    c j.1 (Finset.mem_Ico.mp j.2).1 (Finset.mem_Ico.mp j.2).2 k, ?_, ?_, ?_⟩
  · simp only [if_true]
    rw [Finset.sum_eq_zero, sub_zero]
    intro j _
    have := Finset.mem_Ico.mp j.2
    rw [hc1 _ _ _ (i : Int) (by omega), mul_zero]
  · intro k hk
    simp only
    rw [if_neg (by omega), Finset.sum_eq_zero, sub_zero]
    intro j _
    have := Finset.mem_Ico.mp j.2
    rw [hc1 _ _ _ k (by omega), mul_zero]
  · intro t
    simp only [mul_sub, Finset.sum_sub_distrib, mul_ite, mul_one, mul_zero]
    unfold qrRest
    rw [Finset.sum_ite_eq', if_pos (Finset.mem_Ico.mpr (by omega))]
    congr 1
    simp only [Finset.mul_sum]
    rw [Finset.sum_comm, ← Finset.sum_attach]
    apply Finset.sum_congr rfl
    intro j _
    have hj := Finset.mem_Ico.mp j.2
    rw [hc2 j.1 hj.1 hj.2 t, sum_Ico_succ _ (by omega), hc1 _ _ _ (i : Int) (by omega), mul_zero, mul_zero, add_zero,
      Finset.mul_sum]
    exact Finset.sum_congr rfl (fun k _ => by ring)

theorem dotFn_self_nonneg (m : Int) (f : Int → K) : 0 ≤ dotFn m f f :=
  Finset.sum_nonneg (fun _ _ => mul_self_nonneg _)

theorem dotFn_self_zero {m : Int} {f : Int → K} (h : dotFn m f f = 0) : ZeroOn m f := by
  intro i h0 h1
  have := (Finset.sum_eq_zero_iff_of_nonneg (fun _ _ => mul_self_nonneg _)).mp h i (Finset.mem_Ico.mpr ⟨h0, h1⟩)
  exact mul_self_eq_zero.mp this

theorem qrInv (sqrt : K → K) (hs : ∀ s, 0 ≤ s → sqrt s * sqrt s = s) {m : Nat} (a : Int → Int → K)
    (i : Nat) (h : ∀ k : Nat, k < i → qrNorm sqrt m a (qrSeq sqrt m a k).1 k ≠ 0) :
    QrInv m a (qrSeq sqrt m a i).1 (qrSeq sqrt m a i).2 i := by
  induction i with
  | zero =>
    refine ⟨?_, ?_, ?_, ?_, ?_⟩
    · intro b _ h0 h1; push_cast at h1; omega
    · intro b h0 h1; push_cast at h1; omega
    · intro _ _ _; rfl
    · intro b h0 h1; push_cast at h1; omega
    · intro b h0 h1; push_cast at h1; omega
  | succ i ih =>
    simp only [qrSeq]
    exact qrInv_step sqrt (ih (fun k hk => h k (by omega))) (h i (by omega)) (hs _ (dotFn_self_nonneg _ _))

/-- C67: if `qr_decomp` returns, `Q` has orthonormal columns, `R` is upper triangular with a diagonal without zeros, and
`Q R = A`. -/
theorem C67_factor (sqrt : K → K) (hs : ∀ s, 0 ≤ s → sqrt s * sqrt s = s) (A : Dense K) (hA : A.WF) (Q R : Dense K)
    (h : qrDecomp sqrt A = .ok (Q, R)) :
    Q.Is A.rows A.cols Q.entry ∧ R.Is A.cols A.cols R.entry ∧ OrthoCols A.rows A.cols Q.entry ∧ Upper A.cols R.entry ∧
      (∀ i, 0 ≤ i → i < A.cols → R.entry i i ≠ 0) ∧
      ∀ i j, 0 ≤ i → i < A.rows → 0 ≤ j → j < A.cols →
        ∑ t ∈ Finset.Ico 0 A.cols, Q.entry i t * R.entry t j = A.entry i j := by
  obtain ⟨m, hm⟩ : ∃ n : Nat, A.rows = n := ⟨A.rows.toNat, by have := hA.rows_nonneg; omega⟩
  obtain ⟨n, hn⟩ : ∃ n : Nat, A.cols = n := ⟨A.cols.toNat, by have := hA.cols_nonneg; omega⟩
  have hE := hA.eq_ofFn
  rw [hm, hn] at hE
  simp only [Int.toNat_natCast] at hE
  obtain ⟨a, ha⟩ : ∃ a, a = A.entry := ⟨_, rfl⟩
  rw [← ha] at hE
  rw [hn, hm, ← ha]
  by_cases hp : ∀ i : Nat, i < n → qrNorm sqrt m a (qrSeq sqrt m a i).1 i ≠ 0
  · rw [hE, qrDecomp_ok sqrt a hp] at h
    simp only [Except.ok.injEq, Prod.mk.injEq] at h
    obtain ⟨rfl, rfl⟩ := h
    have I := qrInv sqrt hs a n hp
    refine ⟨(Dense.is_ofFn m n _).congr (fun i j h0 h1 h2 h3 => (ofFn_entry h0 h1 h2 h3).symm),
      (Dense.is_ofFn n n _).congr (fun i j h0 h1 h2 h3 => (ofFn_entry h0 h1 h2 h3).symm), ?_, ?_, ?_, ?_⟩
    · intro b c h0 h1 h2 h3
      rw [← I.orth b c h0 h1 h2 h3]
      apply dotFn_congr
      · intro t t0 t1; exact ofFn_entry t0 t1 h0 h1
      · intro t t0 t1; exact ofFn_entry t0 t1 h2 h3
    · intro i j h0 h1 h2
      rw [ofFn_entry (by omega) h2 h0 (by omega)]
      exact I.zero i j (Or.inl h1)
    · intro i h0 h1
      rw [ofFn_entry h0 h1 h0 h1]
      exact I.diag i h0 h1
    · intro i j h0 h1 h2 h3
      rw [I.prod j h2 h3 i]
      symm
      apply Finset.sum_subset_zero_on_sdiff
      · intro t ht
        have := Finset.mem_Ico.mp ht
        exact Finset.mem_Ico.mpr (by omega)
      · intro t ht
        have h4 := Finset.mem_sdiff.mp ht
        have h5 := Finset.mem_Ico.mp h4.1
        have h6 : ¬ (0 ≤ t ∧ t < j + 1) := fun hh => h4.2 (Finset.mem_Ico.mpr hh)
        rw [ofFn_entry h5.1 h5.2 h2 h3, I.zero t j (by omega), mul_zero]
      · intro t ht
        have := Finset.mem_Ico.mp ht
        rw [ofFn_entry h0 h1 this.1 (by omega), ofFn_entry this.1 (by omega) h2 h3]
  · rw [hE, qrDecomp_err sqrt a hp] at h
    cases h

omit [LinearOrder K] [IsStrictOrderedRing K] in
/-- `Qᵀ (Q y) = y` if the columns of `Q` are orthonormal. -/
theorem ortho_mul {m n : Int} {q : Int → Int → K} (hq : OrthoCols m n q) (y : Int → K) {b : Int} (h0 : 0 ≤ b) (h1 : b < n) :
    dotFn m (fun t => q t b) (matVec n q y) = y b := by
  have e : matVec n q y = fun t => ∑ j ∈ Finset.Ico 0 n, y j * q t j := by
    funext t; unfold matVec; exact Finset.sum_congr rfl (fun _ _ => mul_comm _ _)
  rw [e, dotFn_sum_right, Finset.sum_eq_single b]
  · rw [hq b b h0 h1 h0 h1, if_pos rfl, mul_one]
  · intro j hj hne
    have := Finset.mem_Ico.mp hj
    rw [hq b j h0 h1 this.1 this.2, if_neg (Ne.symm hne), mul_zero]
  · intro hh; exact absurd (Finset.mem_Ico.mpr ⟨h0, h1⟩) hh

omit [LinearOrder K] [IsStrictOrderedRing K] in
/-- `A x = Q (R x)`. -/
theorem qr_apply {m n : Int} {a q r : Int → Int → K}
    (hp : ∀ i j, 0 ≤ i → i < m → 0 ≤ j → j < n → ∑ t ∈ Finset.Ico 0 n, q i t * r t j = a i j) (x : Int → K)
    {t : Int} (h0 : 0 ≤ t) (h1 : t < m) : matVec n a x t = matVec n q (matVec n r x) t := by
  unfold matVec
  have e1 : ∀ j ∈ Finset.Ico 0 n, a t j * x j = ∑ k ∈ Finset.Ico 0 n, q t k * (r k j * x j) := by
    intro j hj
    have hj := Finset.mem_Ico.mp hj
    rw [← hp t j h0 h1 hj.1 hj.2, Finset.sum_mul]
    exact Finset.sum_congr rfl (fun _ _ => by ring)
  rw [Finset.sum_congr rfl e1, Finset.sum_comm]
  exact Finset.sum_congr rfl (fun _ _ => by rw [Finset.mul_sum])

omit [LinearOrder K] [IsStrictOrderedRing K] in
/-- An upper triangular matrix whose diagonal has no zero has independent columns. -/
theorem upper_indep {n : Nat} {r : Int → Int → K} (hu : Upper n r) (hd : ∀ i, 0 ≤ i → i < (n : Int) → r i i ≠ 0) :
    IndepCols n n r := by
  intro c hc
  have key : ∀ k : Nat, ∀ i : Int, 0 ≤ i → i < n → (n : Int) - k ≤ i → c i = 0 := by
    intro k
    induction k with
    | zero => intro i _ _ h; push_cast at h; omega
    | succ k ih =>
      intro i h0 h1 h2
      have e := hc i h0 h1
      unfold matVec at e
      rw [upper_sum hu c h0 h1, Finset.sum_eq_single i] at e
      · exact (mul_eq_zero.mp e).resolve_left (hd i h0 h1)
      · intro j hj hne
        have hj := Finset.mem_Ico.mp hj
        rw [ih j (by omega) hj.2 (by push_cast at h2; omega), mul_zero]
      · intro hh; exact absurd (Finset.mem_Ico.mpr (by omega)) hh
  intro i h0 h1
  exact key n i h0 h1 (by omega)

/-- C67: `qr_decomp` returns exactly if the columns of the matrix are linearly independent; otherwise it stops at the
assertion against division by zero. -/
theorem C67_succeeds (sqrt : K → K) (hs : ∀ s, 0 ≤ s → sqrt s * sqrt s = s) (A : Dense K) (hA : A.WF) :
    (IndepCols A.rows A.cols A.entry → ∃ Q R, qrDecomp sqrt A = .ok (Q, R)) ∧
    (¬ IndepCols A.rows A.cols A.entry → qrDecomp sqrt A = .error .assertFail) := by
  obtain ⟨m, hm⟩ : ∃ n : Nat, A.rows = n := ⟨A.rows.toNat, by have := hA.rows_nonneg; omega⟩
  obtain ⟨n, hn⟩ : ∃ n : Nat, A.cols = n := ⟨A.cols.toNat, by have := hA.cols_nonneg; omega⟩
  have hE := hA.eq_ofFn
  rw [hm, hn] at hE
  simp only [Int.toNat_natCast] at hE
  constructor
  · intro hI
    rw [hm, hn] at hI
    refine ⟨_, _, (congrArg (qrDecomp sqrt) hE).trans (qrDecomp_ok sqrt A.entry ?_)⟩
    intro i
    induction i using Nat.strong_induction_on with
    | _ i ih =>
      intro hi hz
      have I := qrInv sqrt hs A.entry i (fun k hk => ih k hk (by omega))
      obtain ⟨c, c1, c2, c3⟩ := qrRest_comb I
      have e := hs _ (dotFn_self_nonneg m (qrRest m A.entry (qrSeq sqrt m A.entry i).1 i i))
      unfold qrNorm at hz
      rw [hz, mul_zero] at e
      have z := dotFn_self_zero e.symm
      have := hI c (by
        intro t t0 t1
        rw [← z t t0 t1, c3 t]
        unfold matVec
        symm
        apply Finset.sum_subset
        · intro t ht
          have := Finset.mem_Ico.mp ht
          exact Finset.mem_Ico.mpr (by omega)
        · intro k hk hnk
          have := Finset.mem_Ico.mp hk
          have h' : ¬ (0 ≤ k ∧ k < (i : Int) + 1) := fun hh => hnk (Finset.mem_Ico.mpr hh)
          rw [c2 k (by omega), mul_zero]) i (by omega) (by omega)
      rw [c1] at this
      exact one_ne_zero this
  · intro hI
    by_cases hp : ∀ i : Nat, i < n → qrNorm sqrt m A.entry (qrSeq sqrt m A.entry i).1 i ≠ 0
    · exfalso
      apply hI
      obtain ⟨_, _, ho, hu, hd, hq⟩ := C67_factor sqrt hs A hA _ _
        ((congrArg (qrDecomp sqrt) hE).trans (qrDecomp_ok sqrt A.entry hp))
      intro c hc
      rw [hn] at hu hd ho hq hc ⊢
      apply upper_indep hu hd
      intro b h0 h1
      rw [← ortho_mul ho (matVec n _ c) h0 h1]
      unfold dotFn
      apply Finset.sum_eq_zero
      intro t ht
      have ht := Finset.mem_Ico.mp ht
      rw [← qr_apply hq c ht.1 ht.2, hc t ht.1 ht.2, mul_zero]
    · exact (congrArg (qrDecomp sqrt) hE).trans (qrDecomp_err sqrt A.entry hp)

/-- C67: with the factors of `qr_decomp`, `solve_qr` returns the least-squares solution: the residual `b - A x` is orthogonal
to every column of `A`. -/
theorem C67_solve (sqrt : K → K) (hs : ∀ s, 0 ≤ s → sqrt s * sqrt s = s) (A : Dense K) (hA : A.WF) (Q R : Dense K)
    (h : qrDecomp sqrt A = .ok (Q, R)) (b : List K) (hb : (b.length : Int) = A.rows) :
    ∃ x, solveQr Q R b = .ok x ∧ (x.length : Int) = A.cols ∧
      ∀ j, 0 ≤ j → j < A.cols →
        dotFn A.rows (fun t => A.entry t j) (fun t => vecAt b t - matVec A.cols A.entry (vecAt x) t) = 0 := by
  obtain ⟨eQ, eR, ho, hu, hd, hq⟩ := C67_factor sqrt hs A hA Q R h
  obtain ⟨y, ey, hy⟩ := (C36_multVec Q eQ.wf b).2 (by rw [eQ.rows_eq, hb])
  rw [eQ.cols_eq, eQ.rows_eq] at hy
  obtain ⟨x, ex, hx, hx2⟩ := (C47_back R eR.wf (by rw [eR.rows_eq, eR.cols_eq]) y (by rw [eR.rows_eq, hy.length_eq])).1 (by
    rw [eR.rows_eq]; exact hd)
  rw [eR.rows_eq] at hx hx2
  refine ⟨x, ?_, hx, ?_⟩
  · unfold solveQr
    rw [ey, ok_bind, ex]
  -- `R x = Qᵀ b`
  have hRx : ∀ k, 0 ≤ k → k < A.cols → matVec A.cols R.entry (vecAt x) k = dotFn A.rows (fun t => Q.entry t k) (vecAt b) := by
    intro k k0 k1
    unfold matVec
    rw [upper_sum hu _ k0 k1, hx2 k k0 k1, hy.vecAt_eq k0 k1]
    rfl
  -- the residual is orthogonal to the columns of `Q`
  have hQ : ∀ k, 0 ≤ k → k < A.cols →
      dotFn A.rows (fun t => Q.entry t k) (fun t => vecAt b t - matVec A.cols A.entry (vecAt x) t) = 0 := by
    intro k k0 k1
    rw [dotFn_sub_right, dotFn_congr _ (fun _ _ _ => rfl) (fun t t0 t1 => qr_apply hq (vecAt x) t0 t1)]
    rw [show (fun t => matVec A.cols Q.entry (matVec A.cols R.entry (vecAt x)) t)
      = matVec A.cols Q.entry (matVec A.cols R.entry (vecAt x)) from rfl, ortho_mul ho _ k0 k1, hRx k k0 k1, sub_self]
  intro j j0 j1
  obtain ⟨res, hres⟩ : ∃ res, res = fun t => vecAt b t - matVec A.cols A.entry (vecAt x) t := ⟨_, rfl⟩
  rw [← hres] at hQ ⊢
  have e : dotFn A.rows (fun t => A.entry t j) res
      = dotFn A.rows res (fun t => ∑ k ∈ Finset.Ico 0 A.cols, R.entry k j * Q.entry t k) := by
    rw [dotFn_symm]
    apply dotFn_congr _ (fun _ _ _ => rfl)
    intro t t0 t1
    rw [← hq t j t0 t1 j0 j1]
    exact Finset.sum_congr rfl (fun _ _ => mul_comm _ _)
  rw [e, dotFn_sum_right, Finset.sum_eq_zero]
  intro k hk
  have hk := Finset.mem_Ico.mp hk
  rw [dotFn_symm, hQ k hk.1 hk.2, mul_zero]

/-- A concrete run (the square roots that occur are of 25 and of 4). -/
example : let sqrt : Rat → Rat := fun s => if s = 25 then 5 else 2
    qrDecomp sqrt ⟨2, 2, [3, 4, -8/5, 6/5]⟩ = .ok (⟨2, 2, [3/5, 4/5, -4/5, 3/5]⟩, ⟨2, 2, [5, 0, 0, 2]⟩) ∧
    solveQr (⟨2, 2, [3/5, 4/5, -4/5, 3/5]⟩ : Dense Rat) ⟨2, 2, [5, 0, 0, 2]⟩ [7/5, 26/5] = .ok [1, 1] := by decide +kernel

/-- A function that meets the hypothesis on `sqrt`, and a matrix whose columns are independent and one where they are not. -/
example : (∀ s : ℝ, 0 ≤ s → Real.sqrt s * Real.sqrt s = s) ∧
    (⟨2, 1, [3, 4]⟩ : Dense ℝ).WF ∧ IndepCols 2 1 (⟨2, 1, [3, 4]⟩ : Dense ℝ).entry ∧
    ¬ IndepCols 2 1 (⟨2, 1, [0, 0]⟩ : Dense ℝ).entry := by
  have g : ∀ x y : ℝ, (⟨2, 1, [x, y]⟩ : Dense ℝ).entry 0 0 = x ∧ (⟨2, 1, [x, y]⟩ : Dense ℝ).entry 1 0 = y :=
    fun x y => ⟨rfl, rfl⟩
  have one : Finset.Ico (0 : Int) 1 = {0} := rfl
  refine ⟨fun s => Real.mul_self_sqrt, ⟨by decide, by decide, rfl⟩, ?_, ?_⟩
  · intro c hc i h0 h1
    obtain rfl : i = 0 := by omega
    have := hc 0 (by omega) (by omega)
    simpa [matVec, one, (g 3 4).1] using this
  · intro hI
    have := hI (fun _ => 1) (by
      intro t t0 t1
      have : t = 0 ∨ t = 1 := by omega
      rcases this with rfl | rfl <;> simp [matVec, one, g]) 0 (by omega) (by omega)
    simp at this

end Example
end Linalg
