import Verif.Props.LinalgTest
import Verif.Props.CgOptimal
import Verif.Props.Operator
import Verif.Props.Eigen
import Mathlib.LinearAlgebra.Matrix.Trace
import Mathlib.LinearAlgebra.Matrix.Notation
import Mathlib.LinearAlgebra.Matrix.NonsingularInverse

/-!
# The solver tests of `test_linalg.cpp` (C123)
-/

set_option linter.unusedSectionVars false

namespace Linalg
open Cpp
open LinalgTest

/-- The matrix of `test_solvers`: 2 on the diagonal, -1 beside it. -/
def tri5 (i j : Int) : ℝ := if i = j then 2 else if i = j + 1 ∨ j = i + 1 then -1 else 0

theorem ico5 : Finset.Ico (0 : Int) ((5 : Nat) : Int) = {0, 1, 2, 3, 4} := by decide

theorem int5 {i : Int} (h0 : 0 ≤ i) (h1 : i < ((5 : Nat) : Int)) : i = 0 ∨ i = 1 ∨ i = 2 ∨ i = 3 ∨ i = 4 := by omega

theorem tri5_mul (f : Int → ℝ) (i : Int) : matVec ((5 : Nat) : Int) tri5 f i
    = tri5 i 0 * f 0 + (tri5 i 1 * f 1 + (tri5 i 2 * f 2 + (tri5 i 3 * f 3 + tri5 i 4 * f 4))) := by
  unfold matVec
  rw [ico5]
  simp

theorem dot5 (f g : Int → ℝ) : dotFn ((5 : Nat) : Int) f g = f 0 * g 0 + (f 1 * g 1 + (f 2 * g 2 + (f 3 * g 3 + f 4 * g 4))) := by
  unfold dotFn
  rw [ico5]
  simp

theorem tri5_rows (f : Int → ℝ) :
    matVec ((5 : Nat) : Int) tri5 f 0 = 2 * f 0 - f 1 ∧ matVec ((5 : Nat) : Int) tri5 f 1 = - f 0 + 2 * f 1 - f 2 ∧
    matVec ((5 : Nat) : Int) tri5 f 2 = - f 1 + 2 * f 2 - f 3 ∧ matVec ((5 : Nat) : Int) tri5 f 3 = - f 2 + 2 * f 3 - f 4 ∧
    matVec ((5 : Nat) : Int) tri5 f 4 = - f 3 + 2 * f 4 := by
  refine ⟨?_, ?_, ?_, ?_, ?_⟩ <;> rw [tri5_mul] <;> simp [tri5] <;> ring

theorem tri5_symm : SymmOn ((5 : Nat) : Int) tri5 := by
  intro i j _ _ _ _
  unfold tri5
  by_cases h : i = j
  · rw [if_pos h, if_pos h.symm]
  · rw [if_neg h, if_neg (show ¬ j = i from fun e => h e.symm)]
    by_cases h' : i = j + 1 ∨ j = i + 1
    · rw [if_pos h', if_pos h'.symm]
    · rw [if_neg h', if_neg (show ¬ (j = i + 1 ∨ i = j + 1) from fun e => h' e.symm)]

theorem tri5_pos : PosDefOn ((5 : Nat) : Int) tri5 := by
  intro f hf
  obtain ⟨e0, e1, e2, e3, e4⟩ := tri5_rows f
  rw [dot5, e0, e1, e2, e3, e4]
  have h : 0 ≤ f 0 ^ 2 + (f 0 - f 1) ^ 2 + (f 1 - f 2) ^ 2 + (f 2 - f 3) ^ 2 + (f 3 - f 4) ^ 2 + f 4 ^ 2 := by positivity
  rcases h.lt_or_eq with h | h
  · nlinarith
  · exfalso
    apply hf
    have z0 : f 0 = 0 := by nlinarith [sq_nonneg (f 0), sq_nonneg (f 0 - f 1), sq_nonneg (f 1 - f 2), sq_nonneg (f 2 - f 3), sq_nonneg (f 3 - f 4), sq_nonneg (f 4)]
    have z1 : f 0 - f 1 = 0 := by nlinarith [sq_nonneg (f 0), sq_nonneg (f 0 - f 1), sq_nonneg (f 1 - f 2), sq_nonneg (f 2 - f 3), sq_nonneg (f 3 - f 4), sq_nonneg (f 4)]
    have z2 : f 1 - f 2 = 0 := by nlinarith [sq_nonneg (f 0), sq_nonneg (f 0 - f 1), sq_nonneg (f 1 - f 2), sq_nonneg (f 2 - f 3), sq_nonneg (f 3 - f 4), sq_nonneg (f 4)]
    have z3 : f 2 - f 3 = 0 := by nlinarith [sq_nonneg (f 0), sq_nonneg (f 0 - f 1), sq_nonneg (f 1 - f 2), sq_nonneg (f 2 - f 3), sq_nonneg (f 3 - f 4), sq_nonneg (f 4)]
    have z4 : f 4 = 0 := by nlinarith [sq_nonneg (f 0), sq_nonneg (f 0 - f 1), sq_nonneg (f 1 - f 2), sq_nonneg (f 2 - f 3), sq_nonneg (f 3 - f 4), sq_nonneg (f 4)]
    intro i i0 i1
    obtain rfl | rfl | rfl | rfl | rfl := int5 i0 i1 <;> linarith

/-- The entries of the coordinate matrix. -/
def tri5Entries : List (Int × Int × ℝ) :=
  [(0, 0, 2), (0, 1, -1), (1, 0, -1), (1, 1, 2), (1, 2, -1), (2, 1, -1), (2, 2, 2), (2, 3, -1), (3, 2, -1), (3, 3, 2), (3, 4, -1), (4, 3, -1), (4, 4, 2)]

theorem tri5_coef (C : Coo ℝ) (h : C.entries = tri5Entries) : ∀ i j : Int, 0 ≤ i → i < ((5 : Nat) : Int) → 0 ≤ j → j < ((5 : Nat) : Int) → C.coef i j = tri5 i j := by
  intro i j i0 i1 j0 j1
  unfold Coo.coef
  rw [h]
  obtain rfl | rfl | rfl | rfl | rfl := int5 i0 i1 <;> obtain rfl | rfl | rfl | rfl | rfl := int5 j0 j1 <;>
    simp [tripleCoef, tri5Entries, tri5]

theorem solverMatrix_eq : ∃ (C : Coo ℝ) (A : Csr ℝ), (solverMatrix : Res (Coo ℝ × Csr ℝ)) = .ok (C, A) ∧ C.rows = 5 ∧ C.cols = 5 ∧ A.WF ∧
    A.rows = 5 ∧ A.cols = 5 ∧ (∀ i j : Int, 0 ≤ i → i < ((5 : Nat) : Int) → 0 ≤ j → j < ((5 : Nat) : Int) → A.coef i j = tri5 i j) ∧ (opOf A).IsMat ((5 : Nat) : Int) tri5 ∧ (opOfCoo C).IsMat ((5 : Nat) : Int) tri5 := by
  have hC : (⟨5, 5, true, tri5Entries⟩ : Coo ℝ).WF := by
    refine ⟨by norm_num, by norm_num, ?_, fun _ => ?_⟩ <;> simp [tri5Entries]
  obtain ⟨A, a1, a2, a3, a4, a5, a6⟩ := C17_toSparse _ hC
  have hrun : (do
      let C ← (Coo.ofSize 5 5 : Res (Coo ℝ))
      addSymEach C [(0, 0, 2), (0, 1, -1), (1, 1, 2), (1, 2, -1), (2, 2, 2), (2, 3, -1), (3, 3, 2), (3, 4, -1), (4, 4, 2)])
      = .ok (⟨5, 5, true, tri5Entries⟩ : Coo ℝ) := by
    rfl
  have hr : A.rows = 5 := a3
  have hc : A.cols = 5 := a4
  refine ⟨⟨5, 5, true, tri5Entries⟩, A, ?_, rfl, rfl, a2, hr, hc, fun i j h0 h1 h2 h3 => by rw [a6, tri5_coef _ rfl i j h0 h1 h2 h3], ?_, ?_⟩
  · unfold solverMatrix
    obtain ⟨C0, y0, hrun⟩ := bind_eq_ok.1 hrun
    rw [y0, ok_bind, hrun, ok_bind, a1, ok_bind]
  · have h := C42_sparse_op A a2 (by rw [hr, hc])
    refine ⟨hr, hc, ?_⟩
    intro x y hx hy
    obtain ⟨z, e, hz⟩ := h.computes x y hx hy
    rw [show A.toOp.rows = ((5 : Nat) : Int) from hr] at hz
    refine ⟨z, e, ?_⟩
    rw [show (opOf A).rows = ((5 : Nat) : Int) from hr]
    refine hz.congr (fun i h0 h1 => ?_)
    unfold matVec
    rw [show A.rows = ((5 : Nat) : Int) from hr]
    exact Finset.sum_congr rfl (fun j hj => by
      rw [Finset.mem_Ico] at hj
      rw [a6, tri5_coef _ rfl i j h0 h1 hj.1 hj.2])
  · refine ⟨rfl, rfl, ?_⟩
    intro x y hx hy
    obtain ⟨z, e, hz⟩ := C18_mult_value _ hC rfl x y hx hy
    refine ⟨z, e, hz.congr (fun i h0 h1 => ?_)⟩
    exact Finset.sum_congr rfl (fun j hj => by
      rw [Finset.mem_Ico] at hj
      rw [tri5_coef _ rfl i j h0 h1 hj.1 hj.2])

/-- **C11.**  The constructor from a vector makes the diagonal matrix. -/
theorem C11_diag {R : Type} [AddMonoid R] (d : List R) (i j : Int) :
    (Csr.ofDiag d).rows = d.length ∧ (Csr.ofDiag d).cols = d.length ∧
    (0 ≤ i → i < d.length → (Csr.ofDiag d).row i = [(i, vecAt d i)]) ∧
    (Csr.ofDiag d).coef i j = if i = j ∧ 0 ≤ i ∧ i < d.length then vecAt d i else 0 := by
  have hrow : 0 ≤ i → i < d.length → (Csr.ofDiag d).row i = [(i, vecAt d i)] := by
    intro h0 h1
    obtain ⟨k, rfl⟩ : ∃ k : Nat, i = k := ⟨i.toNat, by omega⟩
    have hk : k < d.length := by omega
    have r1 : ∀ l : Nat, l < d.length + 1 → rd (iota (d.length + 1)) (l : Int) = .ok (l : Int) := by
      intro l hl
      rw [rd_eq_ok]
      exact ⟨by omega, by simp [iota, List.getElem?_range hl]⟩
    unfold Csr.row
    rw [show (Csr.ofDiag d).indptr = iota (d.length + 1) from rfl, r1 k (by omega), show (k : Int) + 1 = ((k + 1 : Nat) : Int) by push_cast; rfl,
      r1 (k + 1) (by omega)]
    simp only
    rw [show (((k + 1 : Nat) : Int) - (k : Int)).toNat = 1 by omega, Int.toNat_natCast]
    have hl : k < ((iota d.length).zip d).length := by simp [iota, hk]
    show (((iota d.length).zip d).drop k).take 1 = _
    rw [List.drop_eq_getElem_cons hl, List.take_succ_cons, List.take_zero, List.getElem_zip]
    have hv : vecAt d (k : Int) = d[k] := by
      simp [vecAt, hk]
    rw [hv]
    simp [iota]
  refine ⟨rfl, rfl, hrow, ?_⟩
  by_cases hi : 0 ≤ i ∧ i < d.length
  · unfold Csr.coef
    rw [hrow hi.1 hi.2]
    by_cases h : i = j
    · subst h
      simp [hi]
    · simp [h]
  · rw [if_neg (by tauto), Csr.coef_of_not_row (C11_other_constructors 0 0 le_rfl le_rfl d).2.2 (by simpa [Csr.ofDiag] using hi)]

/-- The preconditioner of `test_solvers`: half the identity. -/
noncomputable def half5 (i j : Int) : ℝ := if i = j then 1 / 2 else 0

theorem half5_isMat : (opOf (Csr.ofDiag (List.replicate 5 (1 / 2 : ℝ)))).IsMat ((5 : Nat) : Int) half5 := by
  have h := C42_sparse_op (Csr.ofDiag (List.replicate 5 (1 / 2 : ℝ))) (C11_other_constructors 0 0 le_rfl le_rfl _).2.2 rfl
  refine ⟨rfl, rfl, ?_⟩
  intro x y hx hy
  obtain ⟨z, e, hz⟩ := h.computes x y hx hy
  refine ⟨z, e, VecIs.congr hz (fun i h0 h1 => ?_)⟩
  refine Finset.sum_congr rfl (fun j hj => ?_)
  have h1 : i < ((5 : Nat) : Int) := h1
  rw [(C11_diag _ i j).2.2.2]
  unfold half5
  by_cases hij : i = j
  · rw [if_pos hij, if_pos ⟨hij, h0, by simpa using h1⟩]
    congr 1
    obtain rfl | rfl | rfl | rfl | rfl := int5 h0 h1 <;> rfl
  · rw [if_neg hij, if_neg (fun h => hij h.1)]

theorem half5_mul (f : Int → ℝ) (i : Int) (h0 : 0 ≤ i) (h1 : i < ((5 : Nat) : Int)) : matVec ((5 : Nat) : Int) half5 f i = 1 / 2 * f i := by
  unfold matVec
  rw [ico5]
  obtain rfl | rfl | rfl | rfl | rfl := int5 h0 h1 <;> simp [half5]

theorem half5_dot (f g : Int → ℝ) : dotFn ((5 : Nat) : Int) (matVec ((5 : Nat) : Int) half5 f) g = 1 / 2 * dotFn ((5 : Nat) : Int) f g := by
  rw [dot5, dot5, half5_mul f 0 (by decide) (by decide), half5_mul f 1 (by decide) (by decide), half5_mul f 2 (by decide) (by decide),
    half5_mul f 3 (by decide) (by decide), half5_mul f 4 (by decide) (by decide)]
  ring

theorem half5_symm : SymmOn ((5 : Nat) : Int) half5 := by
  intro i j _ _ _ _
  unfold half5
  by_cases h : i = j
  · rw [if_pos h, if_pos h.symm]
  · rw [if_neg h, if_neg (show ¬ j = i from fun e => h e.symm)]

theorem half5_pos : PosDefOn ((5 : Nat) : Int) half5 := by
  intro f hf
  rw [dotFn_symm, half5_dot]
  have := dotFn_self_pos hf
  positivity

/-- The square of the norm of the residual of `test_solvers`. -/
noncomputable def res5 (y : List ℝ) : ℝ := dotFn ((5 : Nat) : Int) (residFn ((5 : Nat) : Int) tri5 (List.replicate 5 1) y) (residFn ((5 : Nat) : Int) tri5 (List.replicate 5 1) y)

theorem resid5 (y : List ℝ) : residFn ((5 : Nat) : Int) tri5 (List.replicate 5 1) y 0 = 1 - (2 * vecAt y 0 - vecAt y 1) ∧
    residFn ((5 : Nat) : Int) tri5 (List.replicate 5 1) y 1 = 1 - (- vecAt y 0 + 2 * vecAt y 1 - vecAt y 2) ∧
    residFn ((5 : Nat) : Int) tri5 (List.replicate 5 1) y 2 = 1 - (- vecAt y 1 + 2 * vecAt y 2 - vecAt y 3) ∧
    residFn ((5 : Nat) : Int) tri5 (List.replicate 5 1) y 3 = 1 - (- vecAt y 2 + 2 * vecAt y 3 - vecAt y 4) ∧
    residFn ((5 : Nat) : Int) tri5 (List.replicate 5 1) y 4 = 1 - (- vecAt y 3 + 2 * vecAt y 4) := by
  obtain ⟨e0, e1, e2, e3, e4⟩ := tri5_rows (vecAt y)
  unfold residFn
  rw [e0, e1, e2, e3, e4]
  exact ⟨rfl, rfl, rfl, rfl, rfl⟩

theorem start5 (rand : Int → ℝ) (hr : ∀ i, 0 ≤ rand i ∧ rand i ≤ 1) :
    res5 (vecFn 5 rand) ≤ 45 ∧ ¬ ZeroOn ((5 : Nat) : Int) (residFn ((5 : Nat) : Int) tri5 (List.replicate 5 1) (vecFn 5 rand)) := by
  obtain ⟨e0, e1, e2, e3, e4⟩ := resid5 (vecFn 5 rand)
  have hv : ∀ i : Int, 0 ≤ i → i < ((5 : Nat) : Int) → vecAt (vecFn 5 rand) i = rand i := vecAt_vecFn_on 5 rand
  rw [hv 0 (by decide) (by decide), hv 1 (by decide) (by decide)] at e0
  rw [hv 0 (by decide) (by decide), hv 1 (by decide) (by decide), hv 2 (by decide) (by decide)] at e1
  rw [hv 1 (by decide) (by decide), hv 2 (by decide) (by decide), hv 3 (by decide) (by decide)] at e2
  rw [hv 2 (by decide) (by decide), hv 3 (by decide) (by decide), hv 4 (by decide) (by decide)] at e3
  rw [hv 3 (by decide) (by decide), hv 4 (by decide) (by decide)] at e4
  have b0 := hr 0
  have b1 := hr 1
  have b2 := hr 2
  have b3 := hr 3
  have b4 := hr 4
  constructor
  · unfold res5
    rw [dot5, e0, e1, e2, e3, e4]
    have sq : ∀ t : ℝ, -3 ≤ t → t ≤ 3 → t * t ≤ 9 := fun t h1 h2 => by nlinarith
    have s0 := sq _ (show -3 ≤ 1 - (2 * rand 0 - rand 1) by linarith) (by linarith)
    have s1 := sq _ (show -3 ≤ 1 - (- rand 0 + 2 * rand 1 - rand 2) by linarith) (by linarith)
    have s2 := sq _ (show -3 ≤ 1 - (- rand 1 + 2 * rand 2 - rand 3) by linarith) (by linarith)
    have s3 := sq _ (show -3 ≤ 1 - (- rand 2 + 2 * rand 3 - rand 4) by linarith) (by linarith)
    have s4 := sq _ (show -3 ≤ 1 - (- rand 3 + 2 * rand 4) by linarith) (by linarith)
    linarith
  · intro hz
    have z0 := hz 0 (by decide) (by decide)
    have z1 := hz 1 (by decide) (by decide)
    have z2 := hz 2 (by decide) (by decide)
    have z3 := hz 3 (by decide) (by decide)
    have z4 := hz 4 (by decide) (by decide)
    rw [e0] at z0
    rw [e1] at z1
    rw [e2] at z2
    rw [e3] at z3
    rw [e4] at z4
    linarith

theorem solveError_eq (A : Csr ℝ) (hA : A.WF) (hr : A.rows = 5) (hc : A.cols = 5)
    (hco : ∀ i j : Int, 0 ≤ i → i < ((5 : Nat) : Int) → 0 ≤ j → j < ((5 : Nat) : Int) → A.coef i j = tri5 i j) (y : List ℝ) (hy : y.length = 5) :
    solveError Real.sqrt A (List.replicate 5 1) y = .ok (Real.sqrt (res5 y)) := by
  unfold solveError
  obtain ⟨z, e, hl, hz⟩ := C01_multVec A hA y (by rw [hy, hc]; rfl)
  rw [e, ok_bind]
  have hl5 : z.length = 5 := by omega
  obtain ⟨d, e2, hd⟩ := ((C107_plus_minus (List.replicate 5 (1 : ℝ)) z).1 (by simp [hl5])).2
  rw [e2, ok_bind]
  have hdl : d.length = 5 := by
    have := hd.length_eq
    simp at this
    omega
  unfold Vec.l2Norm
  rw [(C30_sum_inner d d).2.1 rfl, ok_bind]
  congr 2
  rw [hdl]
  unfold res5 dotFn
  have hv : ∀ i : Int, 0 ≤ i → i < ((5 : Nat) : Int) → vecAt d i = residFn ((5 : Nat) : Int) tri5 (List.replicate 5 1) y i := by
    intro i h0 h1
    rw [hd.vecAt_eq h0 (by simpa using h1)]
    unfold residFn
    congr 1
    rw [(show VecIs z A.rows (A.mulVec y) from ⟨hl, hz⟩).vecAt_eq h0 (by rw [hr]; exact h1)]
    unfold Csr.mulVec matVec
    rw [hc]
    exact Finset.sum_congr rfl (fun j hj => by
      rw [Finset.mem_Ico] at hj
      rw [hco i j h0 h1 hj.1 hj.2])
  exact Finset.sum_congr rfl (fun i hi => by
    rw [Finset.mem_Ico] at hi
    rw [hv i hi.1 hi.2])

theorem cg_returns5 (A : Op ℝ) (hA : A.IsMat ((5 : Nat) : Int) tri5) (M : Option (Op ℝ)) (hM : ∀ P, M = some P → P.IsMat ((5 : Nat) : Int) half5)
    (rand : Int → ℝ) (maxIter : Int) (hm : 0 ≤ maxIter) :
    ∃ y, pcgRandom A M (List.replicate 5 1) rand maxIter (1 / 10 ^ 12) (1 / 10 ^ 16) = .ok y ∧ y.length = 5 := by
  unfold pcgRandom
  rw [Solver.randomStart_eq A 5 hA.rows_eq, ok_bind]
  unfold pcgSolve
  rw [(C84_pcg_new A M maxIter _ _ Vec.inner).1 ⟨hm, by rw [hA.rows_eq, hA.cols_eq], fun P e => by
    rw [(hM P e).rows_eq, (hM P e).cols_eq, hA.rows_eq]
    exact ⟨rfl, rfl⟩⟩, ok_bind]
  have hw : ∃ w, Pcg.newWork A = .ok w := by
    unfold Pcg.newWork
    rw [Solver.work_eq A 5 hA.rows_eq]
    exact ⟨_, rfl⟩
  obtain ⟨w, hw⟩ := hw
  rw [hw, ok_bind]
  have hok : Pcg.Ok (⟨A, M, maxIter, 1 / 10 ^ 12, 1 / 10 ^ 16, Vec.inner⟩ : Pcg ℝ) ((5 : Nat) : Int) tri5 half5 := ⟨hA, hM, rfl⟩
  have hspd : Pcg.Spd (⟨A, M, maxIter, 1 / 10 ^ 12, 1 / 10 ^ 16, Vec.inner⟩ : Pcg ℝ) ((5 : Nat) : Int) tri5 half5 :=
    ⟨tri5_symm, tri5_pos, fun _ => half5_symm, fun _ => half5_pos⟩
  obtain ⟨N, st, e, hl⟩ := C44_returns _ 5 tri5 half5 hok hspd (List.replicate 5 1) (vecFn 5 rand) (by simp) (by simp) w
    (lt_max_of_lt_right (by norm_num))
  rw [e, ok_bind]
  exact ⟨_, rfl, hl⟩

theorem tri5_consistent : Consistent ((5 : Nat) : Int) tri5 (List.replicate 5 1) := by
  refine ⟨vecAt [5 / 2, 4, 9 / 2, 4, 5 / 2], fun i i0 i1 => ?_⟩
  obtain ⟨e0, e1, e2, e3, e4⟩ := tri5_rows (vecAt [5 / 2, 4, 9 / 2, 4, 5 / 2])
  have v0 : vecAt [5 / 2, 4, 9 / 2, 4, (5 / 2 : ℝ)] 0 = 5 / 2 := rfl
  have v1 : vecAt [5 / 2, 4, 9 / 2, 4, (5 / 2 : ℝ)] 1 = 4 := rfl
  have v2 : vecAt [5 / 2, 4, 9 / 2, 4, (5 / 2 : ℝ)] 2 = 9 / 2 := rfl
  have v3 : vecAt [5 / 2, 4, 9 / 2, 4, (5 / 2 : ℝ)] 3 = 4 := rfl
  have v4 : vecAt [5 / 2, 4, 9 / 2, 4, (5 / 2 : ℝ)] 4 = 5 / 2 := rfl
  have w : ∀ i : Int, 0 ≤ i → i < ((5 : Nat) : Int) → vecAt (List.replicate 5 (1 : ℝ)) i = 1 := by
    intro i i0 i1
    obtain rfl | rfl | rfl | rfl | rfl := int5 i0 i1 <;> rfl
  rw [w i i0 i1]
  obtain rfl | rfl | rfl | rfl | rfl := int5 i0 i1
  · rw [e0, v0, v1]; norm_num
  · rw [e1, v0, v1, v2]; norm_num
  · rw [e2, v1, v2, v3]; norm_num
  · rw [e3, v2, v3, v4]; norm_num
  · rw [e4, v3, v4]; norm_num

/-- **C123** (partial: `C123_solvers_false`).  `test_solvers` in exact arithmetic, whatever is drawn: with the limit of five passes that the test sets no solve fails and the errors printed for MINRES
and PMINRES are below `10^-22`.  Those of CG and PCG are below `10^-11` with a limit of six, but not always with five. -/
theorem C123_solvers_partial (rand : Nat → Int → ℝ) (hr : ∀ k i, 0 ≤ rand k i ∧ rand k i ≤ 1) (maxIter : Int) (hm : 5 ≤ maxIter) :
    ∃ xc e pe me pme, solvers Real.sqrt maxIter rand = .ok (xc, [e, pe, me, pme]) ∧ xc.length = 5 ∧ me < 1 / 10 ^ 22 ∧ pme < 1 / 10 ^ 22 ∧
      (6 ≤ maxIter → e < 1 / 10 ^ 11 ∧ pe < 1 / 10 ^ 11 ∧ Real.sqrt (res5 xc) < 1 / 10 ^ 11) := by
  obtain ⟨C, A, hrun, c1, c2, hA, a1, a2, hco, hop, hopc⟩ := solverMatrix_eq
  have hM := half5_isMat
  have hMs : ∀ P, some (opOf (Csr.ofDiag (List.replicate 5 (1 / 2 : ℝ)))) = some P → P.IsMat ((5 : Nat) : Int) half5 := by
    intro P e
    rw [← Option.some.inj e]
    exact hM
  have hb : (List.replicate 5 (1 : ℝ)).length = 5 := by simp
  have herr := solveError_eq A hA a1 a2 hco
  obtain ⟨x, x1, x2⟩ := cg_returns5 (opOf A) hop none (by simp) (rand 0) maxIter (by omega)
  obtain ⟨xc, xc1, xc2⟩ := cg_returns5 (opOfCoo C) hopc none (by simp) (rand 1) maxIter (by omega)
  obtain ⟨px, p1, p2⟩ := cg_returns5 (opOf A) hop _ hMs (rand 2) maxIter (by omega)
  obtain ⟨⟨mx, m1, m2, m3⟩, -⟩ := C84_minres_random Real.sqrt isSqrt_real (opOf A) _ 5 tri5 half5 hop hM tri5_symm half5_symm half5_pos (List.replicate 5 1) hb
    (rand 3) tri5_consistent (start5 (rand 3) (hr 3)).2 maxIter hm (1 / 10 ^ 12) (1 / 10 ^ 16) (Or.inl (by norm_num))
  obtain ⟨-, ⟨pm, q1, q2, q3⟩⟩ := C84_minres_random Real.sqrt isSqrt_real (opOf A) _ 5 tri5 half5 hop hM tri5_symm half5_symm half5_pos (List.replicate 5 1) hb
    (rand 4) tri5_consistent (start5 (rand 4) (hr 4)).2 maxIter hm (1 / 10 ^ 12) (1 / 10 ^ 16) (Or.inl (by norm_num))
  have sq7 : ∀ t : ℝ, t ≤ 45 → Real.sqrt t ≤ 7 := fun t h => Real.sqrt_le_iff.mpr ⟨by norm_num, by linarith⟩
  refine ⟨xc, Real.sqrt (res5 x), Real.sqrt (res5 px), Real.sqrt (res5 mx), Real.sqrt (res5 pm), ?_, xc2, ?_, ?_, fun h6 => ?_⟩
  · unfold solvers
    rw [hrun, ok_bind]
    simp only
    rw [a2, mkVec_int (by norm_num) _, ok_bind]
    simp only [show (5 : Int).toNat = 5 from rfl]
    rw [x1, ok_bind, xc1, ok_bind, herr x x2, ok_bind, p1, ok_bind, herr px p2, ok_bind, m1, ok_bind, herr mx m2, ok_bind, q1, ok_bind, herr pm q2, ok_bind]
  · have h : res5 mx < (max (Real.sqrt (res5 (vecFn 5 (rand 3))) * (1 / 10 ^ 12) * (1 / 10 ^ 12)) (1 / 10 ^ 16 * (1 / 10 ^ 16))) ^ 2 := by
      rw [pow_two]; exact m3
    have ht : max (Real.sqrt (res5 (vecFn 5 (rand 3))) * (1 / 10 ^ 12) * (1 / 10 ^ 12)) (1 / 10 ^ 16 * (1 / 10 ^ 16)) ≤ 7 / 10 ^ 24 := by
      apply max_le
      · have := sq7 _ (start5 (rand 3) (hr 3)).1
        linarith
      · norm_num
    have h0 : 0 ≤ max (Real.sqrt (res5 (vecFn 5 (rand 3))) * (1 / 10 ^ 12) * (1 / 10 ^ 12)) (1 / 10 ^ 16 * (1 / 10 ^ 16)) :=
      le_max_of_le_right (by norm_num)
    refine (Real.sqrt_lt' (by norm_num)).mpr (lt_of_lt_of_le h ?_)
    exact pow_le_pow_left₀ h0 (ht.trans (by norm_num)) 2
  · have h : res5 pm < 2 * (max (Real.sqrt (1 / 2 * res5 (vecFn 5 (rand 4))) * (1 / 10 ^ 12) * (1 / 10 ^ 12)) (1 / 10 ^ 16 * (1 / 10 ^ 16))) ^ 2 := by
      unfold MinresDone at q3
      simp only at q3
      rw [dotFn_symm, half5_dot, dotFn_symm ((5 : Nat) : Int) (residFn _ _ _ (vecFn 5 (rand 4))), half5_dot] at q3
      rw [pow_two]
      unfold res5
      linarith
    have ht : max (Real.sqrt (1 / 2 * res5 (vecFn 5 (rand 4))) * (1 / 10 ^ 12) * (1 / 10 ^ 12)) (1 / 10 ^ 16 * (1 / 10 ^ 16)) ≤ 7 / 10 ^ 24 := by
      apply max_le
      · have := sq7 (1 / 2 * res5 (vecFn 5 (rand 4))) (by linarith [(start5 (rand 4) (hr 4)).1])
        linarith
      · norm_num
    have h0 : 0 ≤ max (Real.sqrt (1 / 2 * res5 (vecFn 5 (rand 4))) * (1 / 10 ^ 12) * (1 / 10 ^ 12)) (1 / 10 ^ 16 * (1 / 10 ^ 16)) :=
      le_max_of_le_right (by norm_num)
    have := pow_le_pow_left₀ h0 ht 2
    refine (Real.sqrt_lt' (by norm_num)).mpr (lt_of_lt_of_le h ?_)
    refine le_trans (mul_le_mul_of_nonneg_left this (by norm_num)) ?_
    norm_num
  · have key : ∀ (k : Nat) (y : List ℝ), res5 y < max (res5 (vecFn 5 (rand k)) * (1 / 10 ^ 12) * (1 / 10 ^ 12)) (2 * (1 / 10 ^ 16 * (1 / 10 ^ 16))) → Real.sqrt (res5 y) < 1 / 10 ^ 11 := by
      intro k y h
      refine (Real.sqrt_lt' (by norm_num)).mpr (lt_of_lt_of_le h (max_le ?_ (by norm_num)))
      have := (start5 (rand k) (hr k)).1
      have e : (1 / 10 ^ 11 : ℝ) ^ 2 = 100 * (1 / 10 ^ 12) * (1 / 10 ^ 12) := by norm_num
      rw [e]
      have h0 : (0 : ℝ) < (1 / 10 ^ 12) * (1 / 10 ^ 12) := by norm_num
      nlinarith
    obtain ⟨⟨y, y1, -, y3⟩, -⟩ := C84_random (opOf A) _ 5 tri5 half5 hop hM tri5_symm tri5_pos half5_symm half5_pos (List.replicate 5 1) hb (rand 0) maxIter (by push_cast; omega)
      (1 / 10 ^ 12) (1 / 10 ^ 16) (by norm_num)
    obtain ⟨⟨z, z1, -, z3⟩, -⟩ := C84_random (opOfCoo C) _ 5 tri5 half5 hopc hM tri5_symm tri5_pos half5_symm half5_pos (List.replicate 5 1) hb (rand 1) maxIter (by push_cast; omega)
      (1 / 10 ^ 12) (1 / 10 ^ 16) (by norm_num)
    obtain ⟨-, ⟨u, u1, -, u3⟩⟩ := C84_random (opOf A) _ 5 tri5 half5 hop hM tri5_symm tri5_pos half5_symm half5_pos (List.replicate 5 1) hb (rand 2) maxIter (by push_cast; omega)
      (1 / 10 ^ 12) (1 / 10 ^ 16) (by norm_num)
    obtain rfl := Except.ok.inj (x1.symm.trans y1)
    obtain rfl := Except.ok.inj (xc1.symm.trans z1)
    obtain rfl := Except.ok.inj (p1.symm.trans u1)
    refine ⟨key 0 _ ?_, key 2 _ ?_, key 1 _ ?_⟩
    · exact lt_of_lt_of_le y3 (max_le_max le_rfl (by norm_num))
    · unfold PcgDone at u3
      rw [half5_dot, half5_dot] at u3
      have e : max (res5 (vecFn 5 (rand 2)) * (1 / 10 ^ 12) * (1 / 10 ^ 12)) (2 * (1 / 10 ^ 16 * (1 / 10 ^ 16)))
          = 2 * max (1 / 2 * res5 (vecFn 5 (rand 2)) * (1 / 10 ^ 12) * (1 / 10 ^ 12)) (1 / 10 ^ 16 * (1 / 10 ^ 16)) := by
        rw [mul_max_of_nonneg _ _ (by norm_num : (0 : ℝ) ≤ 2)]
        congr 1
        ring
      rw [e]
      unfold res5
      linarith
    · exact lt_of_lt_of_le z3 (max_le_max le_rfl (by norm_num))

/-- **C123.**  With the limit of the test, CG leaves an error, even without rounding: it uses one direction too few.  For this start the square of the error is more than `7/100`. -/
theorem C123_solvers_false :
    ∃ m y r, (solverMatrix : Res (Coo ℚ × Csr ℚ)) = .ok m ∧
      pcgRandom (opOf m.2) none (List.replicate 5 1) (fun i => if i = 0 then 9 / 10 else 0) 5 (1 / 10 ^ 12) (1 / 10 ^ 16) = .ok y ∧
      (m.2.multVec y).bind (fun Ay => Vec.minus (List.replicate 5 1) Ay) = .ok r ∧ (Vec.inner r r).map (fun s => decide (7 / 100 < s)) = .ok true := by
  refine ⟨(⟨5, 5, true, [(0, 0, 2), (0, 1, -1), (1, 0, -1), (1, 1, 2), (1, 2, -1), (2, 1, -1), (2, 2, 2), (2, 3, -1), (3, 2, -1), (3, 3, 2), (3, 4, -1), (4, 3, -1), (4, 4, 2)]⟩,
    ⟨5, 5, [0, 2, 5, 8, 11, 13], [0, 1, 0, 1, 2, 1, 2, 3, 2, 3, 4, 3, 4], [2, -1, -1, 2, -1, -1, 2, -1, -1, 2, -1, -1, 2]⟩), ?_⟩
  have h1 : (solverMatrix : Res (Coo ℚ × Csr ℚ)) = .ok
    (⟨5, 5, true, [(0, 0, 2), (0, 1, -1), (1, 0, -1), (1, 1, 2), (1, 2, -1), (2, 1, -1), (2, 2, 2), (2, 3, -1), (3, 2, -1), (3, 3, 2), (3, 4, -1), (4, 3, -1), (4, 4, 2)]⟩,
    ⟨5, 5, [0, 2, 5, 8, 11, 13], [0, 1, 0, 1, 2, 1, 2, 3, 2, 3, 4, 3, 4], [2, -1, -1, 2, -1, -1, 2, -1, -1, 2, -1, -1, 2]⟩) := by decide +kernel
  have h2 : (do
      let y ← pcgRandom (opOf (⟨5, 5, [0, 2, 5, 8, 11, 13], [0, 1, 0, 1, 2, 1, 2, 3, 2, 3, 4, 3, 4], [2, -1, -1, 2, -1, -1, 2, -1, -1, 2, -1, -1, 2]⟩ : Csr ℚ)) none
        (List.replicate 5 1) (fun i => if i = 0 then 9 / 10 else 0) 5 (1 / 10 ^ 12) (1 / 10 ^ 16)
      let r ← ((⟨5, 5, [0, 2, 5, 8, 11, 13], [0, 1, 0, 1, 2, 1, 2, 3, 2, 3, 4, 3, 4], [2, -1, -1, 2, -1, -1, 2, -1, -1, 2, -1, -1, 2]⟩ : Csr ℚ).multVec y).bind
        (fun Ay => Vec.minus (List.replicate 5 1) Ay)
      (Vec.inner r r).map (fun s => decide (7 / 100 < s))) = .ok true := by decide +kernel
  obtain ⟨y, e1, h2⟩ := bind_eq_ok.1 h2
  obtain ⟨r, e2, h2⟩ := bind_eq_ok.1 h2
  exact ⟨y, r, h1, e1, e2, h2⟩

/-- The block matrix of `test_blockmatrix`. -/
def exBlock2 : Csr ℚ := ⟨2, 2, [0, 1, 2], [0, 1], [1, 2]⟩
def exBlocks : BlockMat ℚ := ⟨4, 4, [0, 2, 4], [0, 2, 4], [[exBlock2, exBlock2], [exBlock2, exBlock2]]⟩
def exCombined : Csr ℚ := ⟨4, 4, [0, 2, 4, 6, 8], [0, 2, 1, 3, 0, 2, 1, 3], [1, 1, 2, 2, 1, 1, 2, 2]⟩

theorem exBlocks_mult (a b c d e f g h : ℚ) :
    exBlocks.mult [a, b, c, d] [e, f, g, h] = .ok [a + c, 2 * b + 2 * d, a + c, 2 * b + 2 * d] ∧
    exBlocks.multAT [a, b, c, d] [e, f, g, h] = .ok [a + c, 2 * b + 2 * d, a + c, 2 * b + 2 * d] := by
  have h1 : exBlocks.mult [a, b, c, d] [e, f, g, h] = .ok [0 + 1 * a + 1 * c, 0 + 2 * b + 2 * d, 0 + 1 * a + 1 * c, 0 + 2 * b + 2 * d] := by rfl
  have h2 : exBlocks.multAT [a, b, c, d] [e, f, g, h] = .ok [0 + 1 * a + 1 * c, 0 + 2 * b + 2 * d, 0 + 1 * a + 1 * c, 0 + 2 * b + 2 * d] := by rfl
  rw [h1, h2]
  simp

/-- **C123.**  `test_blockmatrix`, whatever is drawn: the four equal blocks, the two products, which are equal since the matrix is symmetric, and the equal inner products. -/
theorem C123_blockMatrix (x y x2 y2 : List ℚ) (hx : x.length = 4) (hy : y.length = 4) (hx2 : x2.length = 4) (hy2 : y2.length = 4) :
    ∃ A u ip, blockMatrix x y x2 y2 = .ok (A, (u, u), (ip, ip)) ∧ A.WF ∧ A.rows = 4 ∧ A.cols = 4 ∧
      (∀ i < 4, ∀ j < 4, A.coef (i : Nat) (j : Nat) = if i % 2 = j % 2 then ((i % 2 + 1 : Nat) : ℚ) else 0) ∧
      u = [vecAt x 0 + vecAt x 2, 2 * vecAt x 1 + 2 * vecAt x 3, vecAt x 0 + vecAt x 2, 2 * vecAt x 1 + 2 * vecAt x 3] ∧
      ip = (vecAt x2 0 + vecAt x2 2) * (vecAt y2 0 + vecAt y2 2) + 2 * (vecAt x2 1 + vecAt x2 3) * (vecAt y2 1 + vecAt y2 3) := by
  obtain ⟨a, b, c, d, rfl⟩ : ∃ a b c d, x = [a, b, c, d] := by
    match x, hx with
    | [a, b, c, d], _ => exact ⟨a, b, c, d, rfl⟩
  obtain ⟨e, f, g, h, rfl⟩ : ∃ a b c d, y = [a, b, c, d] := by
    match y, hy with
    | [a, b, c, d], _ => exact ⟨a, b, c, d, rfl⟩
  obtain ⟨a2, b2, c2, d2, rfl⟩ : ∃ a b c d, x2 = [a, b, c, d] := by
    match x2, hx2 with
    | [a, b, c, d], _ => exact ⟨a, b, c, d, rfl⟩
  obtain ⟨e2, f2, g2, h2, rfl⟩ : ∃ a b c d, y2 = [a, b, c, d] := by
    match y2, hy2 with
    | [a, b, c, d], _ => exact ⟨a, b, c, d, rfl⟩
  have run : (do
      let A2 ← (BlockMat.new [0, 2, 4] [0, 2, 4] : Res (BlockMat ℚ))
      let C ← Coo.ofSize 2 2
      let C ← addEach C [(0, 0, 1), (1, 1, 2)]
      let block ← C.toSparse
      let A2 ← A2.setBlock 0 0 block
      let A2 ← A2.setBlock 0 1 block
      let A2 ← A2.setBlock 1 0 block
      A2.setBlock 1 1 block) = .ok exBlocks := by decide +kernel
  have comb : exBlocks.combine = .ok exCombined := by decide +kernel
  refine ⟨exCombined, [a + c, 2 * b + 2 * d, a + c, 2 * b + 2 * d], (a2 + c2) * (e2 + g2) + 2 * (b2 + d2) * (f2 + h2), ?_, by decide +kernel, rfl, rfl, by decide +kernel, rfl, rfl⟩
  obtain ⟨r0, s0, run⟩ := bind_eq_ok.1 run
  obtain ⟨r1, s1, run⟩ := bind_eq_ok.1 run
  obtain ⟨r2, s2, run⟩ := bind_eq_ok.1 run
  obtain ⟨r3, s3, run⟩ := bind_eq_ok.1 run
  obtain ⟨r4, s4, run⟩ := bind_eq_ok.1 run
  obtain ⟨r5, s5, run⟩ := bind_eq_ok.1 run
  obtain ⟨r6, s6, run⟩ := bind_eq_ok.1 run
  unfold blockMatrix
  rw [s0, ok_bind, s1, ok_bind, s2, ok_bind, s3, ok_bind, s4, ok_bind, s5, ok_bind, s6, ok_bind, run, ok_bind, comb, ok_bind,
    (exBlocks_mult a b c d e f g h).1, ok_bind, (exBlocks_mult a b c d _ _ _ _).2, ok_bind, (exBlocks_mult a2 b2 c2 d2 _ _ _ _).1, ok_bind,
    (exBlocks_mult e2 f2 g2 h2 _ _ _ _).1, ok_bind]
  have i1 : ∀ p q r s t u v w : ℚ, Vec.inner [p, q, r, s] [t, u, v, w] = .ok (0 + p * t + q * u + r * v + s * w) := fun _ _ _ _ _ _ _ _ => rfl
  rw [i1, ok_bind, i1, ok_bind]
  congr 3
  apply Prod.ext <;> ring

/-- **C123.**  The assertion of `test_vector` holds: the normalised vector has norm one. -/
theorem C123_vector : vector Real.sqrt = .ok () := by
  unfold vector
  have hs : (∑ i ∈ Finset.Ico (0 : Int) 5, vecAt (List.replicate 5 (3 : ℝ)) (0 + i) * vecAt (List.replicate 5 (3 : ℝ)) (0 + i)) = 45 := by
    rw [show Finset.Ico (0 : Int) 5 = {0, 1, 2, 3, 4} from ico5]
    simp [vecAt]
    norm_num
  obtain ⟨m, e, hl, h1, -, -⟩ := C31_normalize Real.sqrt ⟨0, 5⟩ (List.replicate 5 (3 : ℝ)) ⟨by simp, by simp, by simp⟩ 45 hs.symm
    (Real.mul_self_sqrt (by norm_num)) (by norm_num)
  rw [e, ok_bind]
  unfold Vec.l2Norm
  rw [(C30_sum_inner m m).2.1 rfl, ok_bind]
  have h2 : (∑ i ∈ Finset.Ico (0 : Int) m.length, vecAt m i * vecAt m i) = 1 := by
    rw [← h1, hl]
    simp
  rw [h2, Real.sqrt_one]
  exact cassert_true (by norm_num)

set_option synthInstance.maxSize 1000 in
/-- **C123.**  What the rest of `test_vector` prints, whatever `v3` was before.  The comparison announced as one with the normalised vector is one with
threes and so true. -/
theorem C123_vectorRest (nrm : List ℚ) : vectorRest nrm = .ok
    ([[], [8, 8, 8, 8, 8, 8, 8, 8], [8, 8], [3, 3, 3, 3, 3]], (true, true, 3, 45),
      [List.replicate 5 9, List.replicate 5 (30 / 17), List.replicate 5 (90 / 17), List.replicate 5 (90 / 17), List.replicate 5 9, List.replicate 5 9,
        List.replicate 5 (100 / 289), List.replicate 5 (289 / 100), List.replicate 5 3, List.replicate 5 (51 / 10)],
      [[0, 1, 2, 3, 4], [-9/2, -7/2, -5/2, -3/2, -1/2], [-3, -2, -1, 0, 1], [-93/10, -83/10, -73/10, -63/10, -53/10],
        [-279/10, -249/10, -219/10, -189/10, -159/10], [-93/10, -83/10, -73/10, -63/10, -53/10], [-63/10, -53/10, -43/10, -33/10, -23/10],
        [-57/5, -52/5, -47/5, -42/5, -37/5], [-2, -1, 0, 1, 2]], [2, -2, 2, 0, 0, 0, 15, 3]) := by
  have e : vectorRest nrm = vectorRest [] := by
    rcases nrm with _ | ⟨a, l⟩
    · rfl
    · unfold vectorRest
      have h : Vec.setSize (a :: l) 0 (0 : ℚ) = Vec.setSize [] 0 0 := by
        unfold Vec.setSize
        rw [if_pos (by simp; omega), if_neg (by simp), cassert_true (le_refl _), ok_bind]
        simp [resize]
      rw [h]
  rw [e]
  decide +kernel

/-- The matrix with eigenvalues 0, 1 and 3. -/
def path3 (K : Type) [Field K] : Dense K := ⟨3, 3, [1, -1, 0, -1, 2, -1, 0, -1, 1]⟩

section
variable {K : Type} [Field K] [LinearOrder K] [IsStrictOrderedRing K]

theorem matOf_path3 : matOf 3 3 (path3 K).data = !![1, -1, 0; -1, 2, -1; 0, -1, 1] := by
  ext i j
  fin_cases i <;> fin_cases j <;> rfl

theorem spectrum_path3 (w : List K) (h : Spectrum (matOf 3 3 (path3 K).data) w) : w = [0, 1, 3] := by
  rw [matOf_path3] at h
  obtain ⟨hl, hs, U, hU, hD⟩ := h
  obtain ⟨a, b, c, rfl⟩ : ∃ a b c, w = [a, b, c] := by
    match w, hl with
    | [a, b, c], _ => exact ⟨a, b, c, rfl⟩
  set M : Matrix (Fin 3) (Fin 3) K := !![1, -1, 0; -1, 2, -1; 0, -1, 1] with hM
  set D := Matrix.diagonal (fun k : Fin 3 => [a, b, c].getD k 0) with hDd
  have hp : M * (M - 1) * (M - 3) = 0 := by
    rw [hM]
    ext i j
    rw [show (3 : Matrix (Fin 3) (Fin 3) K) = !![3, 0, 0; 0, 3, 0; 0, 0, 3] by
      ext i j; fin_cases i <;> fin_cases j <;> simp [Matrix.ofNat_apply], Matrix.one_fin_three]
    fin_cases i <;> fin_cases j <;> simp [Matrix.mul_apply, Fin.sum_univ_three] <;> norm_num
  have e : D = U.transpose * (M * U) := by rw [hD, ← Matrix.mul_assoc, hU, Matrix.one_mul]
  have ht : D.trace = 4 := by
    rw [e, Matrix.trace_mul_comm, Matrix.mul_assoc, mul_eq_one_comm.1 hU, Matrix.mul_one]
    simp [hM, Matrix.trace, Fin.sum_univ_three]
    norm_num
  have hq : M * (M - 1) * (M - 3) * U = U * (D * (D - 1) * (D - 3)) := by
    have h3 : (3 : Matrix (Fin 3) (Fin 3) K) * U = U * 3 := (Nat.cast_commute 3 U).eq
    have s3 : (M - 3) * U = U * (D - 3) := by rw [sub_mul, mul_sub, hD, h3]
    have s1 : (M - 1) * U = U * (D - 1) := by rw [sub_mul, mul_sub, hD, one_mul, mul_one]
    rw [mul_assoc, s3, ← mul_assoc, mul_assoc M, s1, ← mul_assoc, hD, ← mul_assoc, ← mul_assoc]
  have hz : D * (D - 1) * (D - 3) = 0 := by
    have := congrArg (U.transpose * ·) hq
    simp only [hp, Matrix.zero_mul, Matrix.mul_zero, ← Matrix.mul_assoc, hU, Matrix.one_mul] at this
    exact this.symm
  have root : ∀ k : Fin 3, [a, b, c].getD k 0 * ([a, b, c].getD k 0 - 1) * ([a, b, c].getD k 0 - 3) = 0 := by
    intro k
    have h1 : D - 1 = Matrix.diagonal (fun k : Fin 3 => [a, b, c].getD k 0 - 1) := by
      rw [hDd, ← Matrix.diagonal_one, Matrix.diagonal_sub]
    have h3 : D - 3 = Matrix.diagonal (fun k : Fin 3 => [a, b, c].getD k 0 - 3) := by
      rw [hDd, show (3 : Matrix (Fin 3) (Fin 3) K) = Matrix.diagonal (fun _ => 3) from (Matrix.diagonal_ofNat 3).symm, Matrix.diagonal_sub]
    rw [h1, h3, hDd, Matrix.diagonal_mul_diagonal, Matrix.diagonal_mul_diagonal] at hz
    have := congrFun (congrFun hz k) k
    simpa only [Matrix.diagonal_apply_eq, Matrix.zero_apply] using this
  have ra := root 0
  have rb := root 1
  have rc := root 2
  have tr : a + b + c = 4 := by
    rw [hDd, Matrix.trace_diagonal, Fin.sum_univ_three] at ht
    exact ht
  have hab : a ≤ b := by simp at hs; exact hs.1.1
  have hbc : b ≤ c := by simp at hs; exact hs.2
  have cases3 : ∀ t : K, t * (t - 1) * (t - 3) = 0 → t = 0 ∨ t = 1 ∨ t = 3 := by
    intro t h
    rcases mul_eq_zero.1 h with h | h
    · rcases mul_eq_zero.1 h with h | h
      · exact .inl h
      · exact .inr (.inl (by linarith))
    · exact .inr (.inr (by linarith))
  rcases cases3 a ra with rfl | rfl | rfl <;> rcases cases3 b rb with rfl | rfl | rfl <;> rcases cases3 c rc with rfl | rfl | rfl <;>
    first | rfl | (exfalso; norm_num at tr; done) | (exfalso; linarith)

/-- **C123.**  `test_eigensolve` passes with any LAPACK that is exact. -/
theorem C123_eigensolve (L : Lapack K) (hL : L.Exact) : eigensolve L = .ok () := by
  unfold eigensolve
  have le3 : (0 : Int) ≤ 3 := by decide
  have le1 : (1 : Int) ≤ 3 := by decide
  have le33 : (3 : Int) ≤ 3 := by decide
  rw [show Dense.ofData 3 3 [1, 0, 0, 0, 2, 0, 0, 0, (3 : K)] = .ok ⟨3, 3, [1, 0, 0, 0, 2, 0, 0, 0, 3]⟩ from rfl, ok_bind]
  have sd : (matOf 3 3 [1, 0, 0, 0, 2, 0, 0, 0, (3 : K)]).IsSymm := by
    ext i j
    fin_cases i <;> fin_cases j <;> rfl
  have sp : (matOf 3 3 (path3 K).data).IsSymm := by
    ext i j
    fin_cases i <;> fin_cases j <;> rfl
  obtain ⟨S, w, m, V, e, -⟩ := Eigen.C68_eigenpairs L hL Eigen.new .new ⟨3, 3, [1, 0, 0, 0, 2, 0, 0, 0, 3]⟩
    ⟨le3, le3, rfl⟩ 3 (by decide) rfl rfl sd 1 3 (by decide) [] Dense.empty
  have hS : Eigen.Reach L S := Eigen.Reach.solve .new ⟨le3, le3, rfl⟩ rfl le33 e
  unfold Eigen.solveNew
  rw [e, ok_bind, show Dense.ofData 3 3 [1, -1, 0, -1, 2, -1, 0, -1, (1 : K)] = .ok (path3 K) from rfl, ok_bind]
  obtain ⟨S', w', m', V', e', -, -, -, hw, -⟩ := Eigen.C68_eigenpairs L hL S hS (path3 K) ⟨le3, le3, rfl⟩ 3 (by decide) rfl rfl sp
    (1 / 2) 3 (by decide) [] Dense.empty
  obtain ⟨c1, -, c2, c3, c4⟩ := Eigen.C59_count L hL.toSized S hS (path3 K) ⟨le3, le3, rfl⟩ rfl le1 (1 / 2) 3 le33 [] Dense.empty
    S' w' _ e'
  obtain rfl := spectrum_path3 w' hw
  rw [e', ok_bind]
  have hm : (m' : Int) = 2 := by
    have h1 : (1 : Int) ≤ m' := c1
    have h3 : (m' : Int) ≤ 3 := c2
    by_contra hne
    rcases (by omega : (m' : Int) = 1 ∨ (m' : Int) = 3) with h | h
    · have := c4 (by simp [h])
      simp only [h] at this
      have : (3 : K) * (1 / 2) < 1 := this
      norm_num at this
    · have := c3 2 (by decide) (by simp [h])
      have : (3 : K) ≤ 3 * (1 / 2) := this
      norm_num at this
  rw [cassert_true hm, ok_bind, show rd [(0 : K), 1, 3] 0 = .ok 0 from rfl, ok_bind, cassert_true (by norm_num), ok_bind,
    show rd [(0 : K), 1, 3] 1 = .ok 1 from rfl, ok_bind, cassert_true (by norm_num), ok_bind,
    show rd [(0 : K), 1, 3] 2 = .ok 3 from rfl, ok_bind]
  exact cassert_true (by norm_num)

end

/-- **C123.**  `test_blockvector`: the inner product of the two blocks, the blocks normalised through their views (both have norm one and the
direction they had), and only the first element of each then changed. -/
theorem C123_blockVector (a b c d : ℝ) (h1 : a * a + b * b ≠ 0) (h2 : c * c + d * d ≠ 0) :
    ∃ p q r s, blockVector Real.sqrt [a, b, c, d] = .ok (a * c + b * d, [p, q, r, s], [-100, q, -200, s]) ∧ p * p + q * q = 1 ∧
      r * r + s * s = 1 ∧ p * √(a * a + b * b) = a ∧ q * √(a * a + b * b) = b ∧ r * √(c * c + d * d) = c ∧ s * √(c * c + d * d) = d := by
  have ico2 : Finset.Ico (0 : Int) 2 = {0, 1} := by decide
  obtain ⟨m, e, hl, n1, g1, k1⟩ := C31_normalize Real.sqrt ⟨0, 2⟩ [a, b, c, d] ⟨by simp, by simp, by simp⟩ (a * a + b * b)
    (by rw [ico2]; simp [vecAt]) (Real.mul_self_sqrt (by nlinarith [mul_self_nonneg a, mul_self_nonneg b])) h1
  obtain ⟨p, q, c', d', rfl⟩ : ∃ a b c d, m = [a, b, c, d] := by
    match m, hl with
    | [a, b, c, d], _ => exact ⟨a, b, c, d, rfl⟩
  obtain rfl : c' = c := k1 2 (by simp [View.Has])
  obtain rfl : d' = d := k1 3 (by simp [View.Has])
  obtain ⟨m, e', hl, n2, g2, k2⟩ := C31_normalize Real.sqrt ⟨2, 2⟩ [p, q, c', d'] ⟨by simp, by simp, by simp⟩ (c' * c' + d' * d')
    (by rw [ico2]; simp [vecAt]) (Real.mul_self_sqrt (by nlinarith [mul_self_nonneg c', mul_self_nonneg d'])) h2
  obtain ⟨p', q', r, s, rfl⟩ : ∃ a b c d, m = [a, b, c, d] := by
    match m, hl with
    | [a, b, c, d], _ => exact ⟨a, b, c, d, rfl⟩
  obtain rfl : p' = p := k2 0 (by simp [View.Has])
  obtain rfl : q' = q := k2 1 (by simp [View.Has])
  refine ⟨p', q', r, s, ?_, ?_, ?_, g1 0 (by decide) (by decide), g1 1 (by decide) (by decide), g2 0 (by decide) (by decide), g2 1 (by decide) (by decide)⟩
  · unfold blockVector
    dsimp only
    rw [show (⟨0, 4⟩ : View).getBlock [0, 2, 4] 0 = .ok ⟨0, 2⟩ from rfl, ok_bind,
      show (⟨0, 4⟩ : View).getBlock [0, 2, 4] 1 = .ok ⟨2, 2⟩ from rfl, ok_bind,
      show BlockOp.viewElems ⟨0, 2⟩ [a, b, c', d'] = .ok [a, b] from rfl, ok_bind,
      show BlockOp.viewElems ⟨2, 2⟩ [a, b, c', d'] = .ok [c', d'] from rfl, ok_bind,
      show Vec.inner [a, b] [c', d'] = .ok (0 + a * c' + b * d') from rfl, ok_bind, e, ok_bind, e', ok_bind,
      show View.put ⟨0, 2⟩ [p', q', r, s] 0 (-100) = .ok [-100, q', r, s] from rfl, ok_bind,
      show View.put ⟨2, 2⟩ [-100, q', r, s] 0 (-200) = .ok [-100, q', -200, s] from rfl, ok_bind, zero_add]
  · rw [ico2] at n1
    simpa [vecAt] using n1
  · rw [ico2] at n2
    simpa [vecAt] using n2

end Linalg
