import Verif.Proof.SparseSolve
import Verif.Proof.Vec
import Mathlib.Logic.Equiv.Basic

/-!
# The direct sparse solver (C92) and its copies (C93)
-/

namespace Linalg
open Cpp

variable {R S N : Type}

namespace SparseSolver

theorem sum_fin [AddCommMonoid R] (n : Nat) (f : Int → R) : ∑ j : Fin n, f (j : Int) = ∑ j ∈ Finset.Ico (0 : Int) n, f j := by
  induction n with
  | zero => simp
  | succ n ih =>
    rw [Fin.sum_univ_castSucc]
    push_cast
    rw [sum_Ico_succ f (by omega), ← ih]
    simp

theorem mulVec_mat [CommRing R] {A : Csr R} {n : Nat} (hc : A.cols = n) (x : List R) (i : Fin n) :
    (A.mat n).mulVec (fun j => x.getD j 0) i = A.mulVec x i := by
  unfold Csr.mulVec Matrix.mulVec dotProduct Csr.mat
  rw [hc, ← sum_fin n (fun j => A.coef i j * vecAt x j)]
  apply Finset.sum_congr rfl
  intro j _
  simp [vecAt]

theorem tMulVec_mat [CommRing R] {A : Csr R} {n : Nat} (hr : A.rows = n) (x : List R) (i : Fin n) :
    (A.mat n).transpose.mulVec (fun j => x.getD j 0) i = A.tMulVec x i := by
  unfold Csr.tMulVec Matrix.mulVec dotProduct Csr.mat
  rw [hr, ← sum_fin n (fun j => A.coef j i * vecAt x j)]
  apply Finset.sum_congr rfl
  intro j _
  show A.coef j i * x.getD j 0 = _
  simp [vecAt]

theorem list_eq_of_getD [Zero R] {n : Nat} {x y : List R} (hx : x.length = n) (hy : y.length = n)
    (h : (fun i : Fin n => x.getD i 0) = fun i : Fin n => y.getD i 0) : x = y := by
  apply List.ext_getElem (by omega)
  intro k h1 h2
  have := congrFun h ⟨k, by omega⟩
  simpa [List.getD_eq_getElem?_getD, h1, h2] using this

theorem mulVec_inj [CommRing R] {n : Nat} {M : Matrix (Fin n) (Fin n) R} (h : IsUnit M.det) {u v : Fin n → R}
    (e : M.mulVec u = M.mulVec v) : u = v := by
  have := congrArg (fun w => M⁻¹.mulVec w) e
  simpa [Matrix.mulVec_mulVec, Matrix.nonsing_inv_mul M h] using this

/-- `Mult` and `MultAT` of a solver that stands for a matrix with entries: they undo the matrix and its transpose. -/
theorem undo_repr [CommRing R] {U : Umfpack R S N} (hU : U.Exact) {srt : Csr.Sorter} (hs : IsSort srt) {F : Factors N} {s : SparseSolver R}
    {A : Csr R} (h : Repr U srt F s A) (hz : A.nnz ≠ 0) (b out : List R) (hb : (b.length : Int) = A.rows) (ho : (out.length : Int) = A.rows) :
    (∃ x, s.mult U F b out = .ok x ∧ (x.length : Int) = A.rows ∧ (∀ i, 0 ≤ i → i < A.rows → A.mulVec x i = vecAt b i) ∧
      ∀ y : List R, (y.length : Int) = A.rows → (∀ i, 0 ≤ i → i < A.rows → A.mulVec y i = vecAt b i) → y = x) ∧
    (∃ x, s.multAT U F b out = .ok x ∧ (x.length : Int) = A.rows ∧ (∀ i, 0 ≤ i → i < A.rows → A.tMulVec x i = vecAt b i) ∧
      ∀ y : List R, (y.length : Int) = A.rows → (∀ i, 0 ≤ i → i < A.rows → A.tMulVec y i = vecAt b i) → y = x) := by
  obtain ⟨⟨x, hx, hlx, -, hsx⟩, ⟨z, hz', hlz, -, hsz⟩⟩ := mult_repr hU hs h b out hb ho
  obtain ⟨hA, hsq, -, -, h⟩ := h
  have hr0 := hA.rows_nonneg
  have hu : IsUnit (A.mat A.rows.toNat).det := by
    rcases h with ⟨h0, -⟩ | ⟨h0, hsort, hR, -⟩
    · exact absurd h0 hz
    · have := ready_sorted hs hA (n := A.rows.toNat) (by omega) (by omega) h0 hsort
      exact (this.2.2.2.2.2.mp hR).2
  have hu' : IsUnit (A.mat A.rows.toNat).transpose.det := by rw [Matrix.det_transpose]; exact hu
  have hrn : A.rows = (A.rows.toNat : Int) := by omega
  have hcn : A.cols = (A.rows.toNat : Int) := by omega
  have hat : ∀ (l : List R) (k : Nat), l.getD k 0 = vecAt l (k : Int) := by intro l k; simp [vecAt]
  refine ⟨⟨x, hx, hlx, ?_, ?_⟩, ⟨z, hz', hlz, ?_, ?_⟩⟩
  · intro i h0 h1
    have := congrFun (hsx hz) ⟨i.toNat, by omega⟩
    rw [mulVec_mat hcn, hat] at this
    simpa [Int.toNat_of_nonneg h0] using this
  · intro y hy he
    apply list_eq_of_getD (n := A.rows.toNat) (by omega) (by omega)
    apply mulVec_inj hu
    rw [hsx hz]
    funext i
    rw [mulVec_mat hcn, he i (by omega) (by omega), hat]
  · intro i h0 h1
    have := congrFun (hsz hz) ⟨i.toNat, by omega⟩
    rw [tMulVec_mat hrn, hat] at this
    simpa [Int.toNat_of_nonneg h0] using this
  · intro y hy he
    apply list_eq_of_getD (n := A.rows.toNat) (by omega) (by omega)
    apply mulVec_inj hu'
    rw [hsz hz]
    funext i
    rw [tMulVec_mat hrn, he i (by omega) (by omega), hat]

end SparseSolver

/-! ## C92 -/

/-- **C92.**  For a square invertible matrix that stores no entry twice, the solver is built, whatever the order of the entries and
whatever else has been factored; `Mult` then returns the only solution of `A x = b` and `MultAT` the only solution of `Aᵀ x = b`. -/
theorem C92_solves [CommRing R] (U : Umfpack R S N) (hU : U.Exact) (srt : Csr.Sorter) (hs : IsSort srt) (F : SparseSolver.Factors N)
    (A : Csr R) (hA : A.WF) (hsq : A.rows = A.cols) (hz : A.nnz ≠ 0) (hd : A.NoDup) (hdet : IsUnit (A.mat A.rows.toNat).det) :
    ∃ F' s, SparseSolver.new U srt F A = .ok (F', s) ∧ s.rows = A.rows ∧ s.cols = A.cols ∧
      ∀ b out : List R, (b.length : Int) = A.rows → (out.length : Int) = A.rows →
      (∃ x, s.mult U F' b out = .ok x ∧ (x.length : Int) = A.rows ∧ (∀ i, 0 ≤ i → i < A.rows → A.mulVec x i = vecAt b i) ∧
        ∀ y : List R, (y.length : Int) = A.rows → (∀ i, 0 ≤ i → i < A.rows → A.mulVec y i = vecAt b i) → y = x) ∧
      (∃ x, s.multAT U F' b out = .ok x ∧ (x.length : Int) = A.rows ∧ (∀ i, 0 ≤ i → i < A.rows → A.tMulVec x i = vecAt b i) ∧
        ∀ y : List R, (y.length : Int) = A.rows → (∀ i, 0 ≤ i → i < A.rows → A.tMulVec y i = vecAt b i) → y = x) := by
  have h := SparseSolver.new_eq hU hs F hA
  rw [if_pos ⟨hsq, Or.inr ⟨hd, hdet⟩⟩] at h
  obtain ⟨s, h1, h2, -⟩ := h
  refine ⟨_, s, h1, h2.2.2.1, h2.2.2.2.1, ?_⟩
  intro b out hb ho
  exact SparseSolver.undo_repr hU hs h2 hz b out hb ho

/-- **C92.**  A matrix that is not square is rejected, and so is one with entries that is singular or stores an entry twice. -/
theorem C92_rejects [CommRing R] (U : Umfpack R S N) (hU : U.Exact) (srt : Csr.Sorter) (hs : IsSort srt) (F : SparseSolver.Factors N)
    (A : Csr R) (hA : A.WF)
    (h : A.rows ≠ A.cols ∨ A.nnz ≠ 0 ∧ (¬ A.NoDup ∨ ¬ IsUnit (A.mat A.rows.toNat).det)) :
    SparseSolver.new U srt F A = .error .assertFail := by
  have h' := SparseSolver.new_eq hU hs F hA
  rw [if_neg] at h'
  · exact h'
  · rintro ⟨h1, h2⟩
    rcases h with h | ⟨h3, h4⟩
    · exact h h1
    · rcases h2 with h2 | ⟨h5, h6⟩
      · exact h3 h2
      · rcases h4 with h4 | h4
        · exact h4 h5
        · exact h4 h6

/-- **C92.**  Vectors of the wrong size are rejected, whatever the solver. -/
theorem C92_sizes [Zero R] (U : Umfpack R S N) (F : SparseSolver.Factors N) (s : SparseSolver R) (b out : List R) :
    (((b.length : Int) ≠ s.A.cols ∨ (out.length : Int) ≠ s.A.rows) → s.mult U F b out = .error .assertFail) ∧
    (((b.length : Int) ≠ s.A.rows ∨ (out.length : Int) ≠ s.A.cols) → s.multAT U F b out = .error .assertFail) := by
  constructor
  · intro h
    unfold SparseSolver.mult
    by_cases h1 : (b.length : Int) = s.A.cols
    · rw [cassert_true h1, ok_bind, cassert_false (by rcases h with h | h; exacts [absurd h1 h, h])]
      rfl
    · rw [cassert_false h1]; rfl
  · intro h
    unfold SparseSolver.multAT
    by_cases h1 : (b.length : Int) = s.A.rows
    · rw [cassert_true h1, ok_bind, cassert_false (by rcases h with h | h; exacts [absurd h1 h, h])]
      rfl
    · rw [cassert_false h1]; rfl

/-- **C92.**  A square matrix that stores nothing is accepted although it is singular unless it has size 0; nothing is factored, and
`Mult` and `MultAT` return zeros. -/
theorem C92_empty [CommRing R] (U : Umfpack R S N) (srt : Csr.Sorter) (F : SparseSolver.Factors N) (A : Csr R)
    (hsq : A.rows = A.cols) (hz : A.nnz = 0) :
    ∃ s, SparseSolver.new U srt F A = .ok (F, s) ∧
      ∀ b out : List R, (b.length : Int) = A.rows → (out.length : Int) = A.rows →
        s.mult U F b out = .ok (List.replicate out.length 0) ∧ s.multAT U F b out = .ok (List.replicate out.length 0) := by
  unfold SparseSolver.new
  rw [cassert_true hsq, ok_bind, if_neg (show ¬ A.nnz > 0 by omega)]
  refine ⟨_, rfl, ?_⟩
  intro b out hb ho
  unfold SparseSolver.mult SparseSolver.multAT
  dsimp only
  rw [cassert_true (by omega), ok_bind, cassert_true (by omega), ok_bind, cassert_true (by omega), ok_bind, cassert_true (by omega), ok_bind]
  simp

/-! ### UMFPACK as assumed exists -/

open Classical in
/-- A solver that inverts the matrix; what it keeps of a matrix is its size. -/
noncomputable def SparseSolver.ideal (R : Type) [Field R] : Umfpack R Nat Nat where
  symbolic n _ Ap Ai _ := (if ColOk n.toNat Ap Ai then 0 else -8, n.toNat)
  numeric Ap Ai Ax n := (if IsUnit (colMat n Ap Ai Ax).det then 0 else 1, n)
  solve At Ap Ai Ax b n :=
    (List.ofFn ((if At then (colMat n Ap Ai Ax).transpose else colMat n Ap Ai Ax)⁻¹.mulVec (fun i => b.getD i 0)), 0)

theorem SparseSolver.ideal_exact (R : Type) [Field R] : (SparseSolver.ideal R).Exact where
  symbolic n Ap Ai Ax _ _ _ := by
    by_cases h : ColOk n Ap Ai <;> simp [SparseSolver.ideal, h]
  numeric n Ap Ai Ax _ _ _ _ := by
    simp only [SparseSolver.ideal, Int.toNat_natCast]
    by_cases h : IsUnit (colMat n Ap Ai Ax).det
    · rw [if_pos h]; exact ⟨fun _ => h, fun _ => rfl⟩
    · rw [if_neg h]; exact ⟨fun h' => absurd h' (by decide), fun h' => absurd h' h⟩
  solve n Ap Ai Ax b _ _ _ _ hu _ At := by
    have key : ∀ M : Matrix (Fin n) (Fin n) R, IsUnit M.det → M.mulVec (M⁻¹.mulVec (fun i : Fin n => b.getD i 0)) = fun i : Fin n => b.getD i 0 := by
      intro M hM
      rw [Matrix.mulVec_mulVec, Matrix.mul_nonsing_inv M hM, Matrix.one_mulVec]
    refine ⟨rfl, by simp [SparseSolver.ideal], ?_⟩
    have e : ∀ f : Fin n → R, (fun i : Fin n => (List.ofFn f).getD i 0) = f := by
      intro f; funext i; simp [List.getD_eq_getElem?_getD]
    have hM : IsUnit (if At then (colMat n Ap Ai Ax).transpose else colMat n Ap Ai Ax).det := by
      cases At
      · simpa using hu
      · simpa [Matrix.det_transpose] using hu
    have := key _ hM
    simp only [SparseSolver.ideal, Int.toNat_natCast]
    rw [e]
    exact this

/-- The matrix `[[0, 2], [3, 1]]`, the second row stored out of order. -/
def SparseSolver.exA : Csr Rat := ⟨2, 2, [0, 1, 3], [1, 1, 0], [2, 1, 3]⟩

theorem SparseSolver.exA_ok : SparseSolver.exA.WF ∧ SparseSolver.exA.nnz ≠ 0 ∧ SparseSolver.exA.NoDup ∧
    IsUnit (SparseSolver.exA.mat SparseSolver.exA.rows.toNat).det := by
  refine ⟨by decide +kernel, by decide +kernel, ?_, ?_⟩
  · intro i
    by_cases h0 : i < 0
    · rw [Csr.row_neg _ h0]; simp
    · by_cases h1 : i < 2
      · have : i = 0 ∨ i = 1 := by omega
        rcases this with rfl | rfl <;> decide +kernel
      · rw [Csr.row_ge _ (by decide) (by show i ≥ 2; omega)]; simp
  · show IsUnit (SparseSolver.exA.mat 2).det
    rw [Matrix.det_fin_two]
    have : SparseSolver.exA.mat 2 0 0 * SparseSolver.exA.mat 2 1 1 - SparseSolver.exA.mat 2 0 1 * SparseSolver.exA.mat 2 1 0 = -6 := by
      decide +kernel
    rw [this]
    exact isUnit_iff_ne_zero.mpr (by norm_num)

/-- The hypotheses of `C92_solves` hold for it. -/
example (srt : Csr.Sorter) (hs : IsSort srt) : ∃ F s, SparseSolver.new (SparseSolver.ideal Rat) srt [] SparseSolver.exA = .ok (F, s) ∧
    ∃ x, s.mult (SparseSolver.ideal Rat) F [4, 5] [0, 0] = .ok x ∧ [(1 : Rat), 2] = x := by
  obtain ⟨h1, h2, h3, h4⟩ := SparseSolver.exA_ok
  obtain ⟨F, s, e, -, -, h⟩ := C92_solves (SparseSolver.ideal Rat) (SparseSolver.ideal_exact Rat) srt hs [] SparseSolver.exA h1 rfl h2 h3 h4
  obtain ⟨⟨x, hx, -, -, hu⟩, -⟩ := h [4, 5] [0, 0] rfl rfl
  refine ⟨F, s, e, x, hx, hu _ rfl ?_⟩
  intro i h0 h1
  have h1 : i < 2 := h1
  have : i = 0 ∨ i = 1 := by omega
  rcases this with rfl | rfl <;> decide +kernel

/-! ## C93 -/

namespace SparseSolver

theorem Repr.mono [CommRing R] {U : Umfpack R S N} {srt : Csr.Sorter} {F F' : Factors N} {s : SparseSolver R} {A : Csr R}
    (h : Repr U srt F s A) (hF : ∀ k, s.numeric = .to k → F'[k]? = F[k]?) : Repr U srt F' s A := by
  obtain ⟨h1, h2, h3, h4, h⟩ := h
  refine ⟨h1, h2, h3, h4, ?_⟩
  rcases h with h | ⟨h5, h6, h7, k, h8, h9⟩
  · exact Or.inl h
  · exact Or.inr ⟨h5, h6, h7, k, h8, by rw [hF k h8, h9]⟩

theorem Repr.lt [CommRing R] {U : Umfpack R S N} {srt : Csr.Sorter} {F : Factors N} {s : SparseSolver R} {A : Csr R}
    (h : Repr U srt F s A) {k : Nat} (hk : s.numeric = .to k) : k < F.length ∧ F[k]? = some (some (fac U s.A)) := by
  obtain ⟨-, -, -, -, h⟩ := h
  rcases h with ⟨-, -, h⟩ | ⟨-, -, -, k', h8, h9⟩
  · rw [h] at hk; cases hk
  · rw [h8] at hk; cases hk
    exact ⟨(List.getElem?_eq_some_iff.mp h9).1, h9⟩

/-- The named solvers stand for the named matrices; each has its own factorisation, and there are no others. -/
structure Holds [CommRing R] (U : Umfpack R S N) (srt : Csr.Sorter) (F : Factors N) (g : Nat → Option (SparseSolver R))
    (v : Nat → Option (Csr R)) : Prop where
  here : ∀ (i : Nat) (s : SparseSolver R), g i = some s → ∃ A, v i = some A ∧ Repr U srt F s A
  gone : ∀ (i : Nat), g i = none → v i = none
  apart : ∀ (i j k : Nat) (s t : SparseSolver R), i ≠ j → g i = some s → g j = some t → s.numeric = .to k → t.numeric ≠ .to k
  owned : ∀ (k : Nat) (f : N), F[k]? = some (some f) → ∃ i s, g i = some s ∧ s.numeric = .to k

namespace Holds
variable [CommRing R] {U : Umfpack R S N} {srt : Csr.Sorter} {F : Factors N} {g : Nat → Option (SparseSolver R)} {v : Nat → Option (Csr R)}

theorem add (h : Holds U srt F g v) {i : Nat} (hi : g i = none) {F' : Factors N} {s : SparseSolver R} {A : Csr R} (hs : Repr U srt F' s A)
    (hold : ∀ k < F.length, F'[k]? = F[k]?) (hnew : ∀ k, s.numeric = .to k → F.length ≤ k)
    (hown : ∀ (k : Nat) (f : N), F'[k]? = some (some f) → k < F.length ∨ s.numeric = .to k) :
    Holds U srt F' (Function.update g i (some s)) (Function.update v i (some A)) := by
  refine ⟨?_, ?_, ?_, ?_⟩
  · intro j t ht
    by_cases hj : j = i
    · subst hj
      rw [Function.update_self] at ht ⊢
      cases ht
      exact ⟨A, rfl, hs⟩
    · rw [Function.update_of_ne hj] at ht ⊢
      obtain ⟨B, hB, hR⟩ := h.here j t ht
      exact ⟨B, hB, hR.mono (fun k hk => hold k (hR.lt hk).1)⟩
  · intro j ht
    by_cases hj : j = i
    · subst hj
      rw [Function.update_self] at ht
      cases ht
    · rw [Function.update_of_ne hj] at ht ⊢
      exact h.gone j ht
  · intro a b k t u hab ha hb hk hk'
    by_cases hai : a = i
    · subst hai
      rw [Function.update_self] at ha
      cases ha
      rw [Function.update_of_ne (Ne.symm hab)] at hb
      obtain ⟨B, -, hR⟩ := h.here b u hb
      have := (hR.lt hk').1
      have := hnew k hk
      omega
    · rw [Function.update_of_ne hai] at ha
      by_cases hbi : b = i
      · subst hbi
        rw [Function.update_self] at hb
        cases hb
        obtain ⟨B, -, hR⟩ := h.here a t ha
        have := (hR.lt hk).1
        have := hnew k hk'
        omega
      · rw [Function.update_of_ne hbi] at hb
        exact h.apart a b k t u hab ha hb hk hk'
  · intro k f hf
    rcases hown k f hf with hk | hk
    · rw [hold k hk] at hf
      obtain ⟨j, t, hj, ht⟩ := h.owned k f hf
      refine ⟨j, t, ?_, ht⟩
      rw [Function.update_of_ne]
      · exact hj
      · rintro rfl
        rw [hi] at hj
        cases hj
    · exact ⟨i, s, by rw [Function.update_self], hk⟩

theorem remove (h : Holds U srt F g v) {i : Nat} {s : SparseSolver R} (hi : g i = some s) :
    ∃ F', destroy F s = .ok F' ∧ F'.length = F.length ∧ Holds U srt F' (Function.update g i none) (Function.update v i none) := by
  obtain ⟨A, hA, hR⟩ := h.here i s hi
  have main : ∀ F' : Factors N, (∀ k, s.numeric ≠ .to k → F'[k]? = F[k]?) → (∀ k f, s.numeric = .to k → F'[k]? ≠ some (some f)) →
      Holds U srt F' (Function.update g i none) (Function.update v i none) := by
    intro F' h1 h2
    refine ⟨?_, ?_, ?_, ?_⟩
    · intro j t ht
      by_cases hj : j = i
      · subst hj
        rw [Function.update_self] at ht
        cases ht
      · rw [Function.update_of_ne hj] at ht ⊢
        obtain ⟨B, hB, hR'⟩ := h.here j t ht
        exact ⟨B, hB, hR'.mono (fun k hk => h1 k (h.apart j i k t s hj ht hi hk))⟩
    · intro j ht
      by_cases hj : j = i
      · subst hj
        rw [Function.update_self]
      · rw [Function.update_of_ne hj] at ht ⊢
        exact h.gone j ht
    · intro a b k t u hab ha hb
      by_cases hai : a = i
      · subst hai
        rw [Function.update_self] at ha
        cases ha
      · by_cases hbi : b = i
        · subst hbi
          rw [Function.update_self] at hb
          cases hb
        · rw [Function.update_of_ne hai] at ha
          rw [Function.update_of_ne hbi] at hb
          exact h.apart a b k t u hab ha hb
    · intro k f hf
      by_cases hk : s.numeric = .to k
      · exact absurd hf (h2 k f hk)
      · rw [h1 k hk] at hf
        obtain ⟨j, t, hj, ht⟩ := h.owned k f hf
        refine ⟨j, t, ?_, ht⟩
        rw [Function.update_of_ne]
        · exact hj
        · rintro rfl
          rw [hi] at hj
          cases hj
          exact hk ht
  unfold destroy
  have hcase := hR.2.2.2.2
  rcases hcase with ⟨-, -, hn⟩ | ⟨-, -, -, k, hn, hF⟩
  · rw [hn]
    refine ⟨F, rfl, rfl, main F (fun _ _ => rfl) ?_⟩
    intro k f hk
    rw [hn] at hk
    cases hk
  · rw [hn]
    have hlt := (List.getElem?_eq_some_iff.mp hF).1
    refine ⟨F.set k none, by simp only [hF], by simp, main _ ?_ ?_⟩
    · intro k' hk'
      rw [List.getElem?_set_ne]
      rintro rfl
      exact hk' hn
    · intro k' f hk'
      rw [hn] at hk'
      cases hk'
      rw [List.getElem?_set_self hlt]
      simp

theorem swap (h : Holds U srt F g v) (i j : Nat) : Holds U srt F (g ∘ Equiv.swap i j) (v ∘ Equiv.swap i j) := by
  refine ⟨fun a s hs => h.here _ s hs, fun a hs => h.gone _ hs, ?_, ?_⟩
  · intro a b k s t hab
    exact h.apart _ _ k s t (fun e => hab ((Equiv.swap i j).injective e))
  · intro k f hf
    obtain ⟨a, s, ha, hs⟩ := h.owned k f hf
    refine ⟨Equiv.swap i j a, s, ?_, hs⟩
    simpa using ha

end Holds

/-! Reading the lists of named things. -/

theorem join_append {β : Type} (l : List (Option β)) (x : Option β) :
    (fun i => (l ++ [x])[i]?.join) = Function.update (fun i => l[i]?.join) l.length x := by
  funext i
  by_cases h : i = l.length
  · subst h; simp
  · rw [Function.update_of_ne h]
    by_cases h' : i < l.length
    · rw [List.getElem?_append_left h']
    · rw [List.getElem?_eq_none (by simp; omega), List.getElem?_eq_none (by omega)]

theorem join_set {β : Type} (l : List (Option β)) (k : Nat) (hk : k < l.length) (x : Option β) :
    (fun i => (l.set k x)[i]?.join) = Function.update (fun i => l[i]?.join) k x := by
  funext i
  by_cases h : i = k
  · subst h; simp [hk]
  · rw [Function.update_of_ne h, List.getElem?_set_ne (Ne.symm h)]

theorem join_lt {β : Type} {l : List (Option β)} {i : Nat} {x : β} (h : l[i]?.join = some x) : i < l.length := by
  by_contra hc
  rw [List.getElem?_eq_none (by omega)] at h
  cases h

theorem update_swap {β : Type} (f : Nat → Option β) (i j : Nat) (a b : Option β) (ha : f i = a) (hb : f j = b) :
    Function.update (Function.update f j a) i b = f ∘ Equiv.swap i j := by
  funext k
  by_cases h : k = i
  · subst h; simp [hb]
  · rw [Function.update_of_ne h]
    by_cases h' : k = j
    · subst h'; simp [ha]
    · rw [Function.update_of_ne h', Function.comp, Equiv.swap_apply_of_ne_of_ne h h']

end SparseSolver

namespace SolverStore
open SparseSolver

/-- The solvers of a store stand for the matrices `vs`. -/
def Holds [CommRing R] (U : Umfpack R S N) (srt : Csr.Sorter) (w : SolverStore R N) (vs : List (Option (Csr R))) : Prop :=
  w.objs.length = vs.length ∧ SparseSolver.Holds U srt w.factors (fun i => w.objs[i]?.join) (fun i => vs[i]?.join)

theorem obj_eq (w : SolverStore R N) (i : Nat) :
    w.obj i = match w.objs[i]?.join with | some s => .ok s | none => .error .undefinedBehaviour := by
  unfold obj
  rcases w.objs[i]? with _ | _ | s <;> rfl

theorem get_eq (vs : List (Option (Csr R))) (i : Nat) :
    SolverVals.get vs i = match vs[i]?.join with | some A => .ok A | none => .error .undefinedBehaviour := by
  unfold SolverVals.get
  rcases vs[i]? with _ | _ | s <;> rfl

section
variable [CommRing R] {U : Umfpack R S N} {srt : Csr.Sorter} {w : SolverStore R N} {vs : List (Option (Csr R))}

/-- Both find a solver, or neither. -/
theorem find (h : w.Holds U srt vs) (i : Nat) :
    (w.obj i = .error .undefinedBehaviour ∧ SolverVals.get vs i = .error .undefinedBehaviour) ∨
    ∃ s A, w.obj i = .ok s ∧ SolverVals.get vs i = .ok A ∧ w.objs[i]?.join = some s ∧ vs[i]?.join = some A ∧ Repr U srt w.factors s A := by
  rw [obj_eq, get_eq]
  rcases hg : w.objs[i]?.join with _ | s
  · left
    rw [h.2.gone i hg]
    exact ⟨rfl, rfl⟩
  · right
    obtain ⟨A, hA, hR⟩ := h.2.here i s hg
    refine ⟨s, A, rfl, ?_, rfl, hA, hR⟩
    rw [show vs[i]?.join = some A from hA]

theorem copy_ok (hU : U.Exact) {F : Factors N} {s : SparseSolver R} {A : Csr R} (hR : Repr U srt F s A) (hz : 0 < A.nnz) (F' : Factors N)
    (hl : F'.length = F.length) :
    SparseSolver.copy U F' s = .ok (F' ++ [some (fac U s.A)], { s with numeric := .to F.length }) ∧
      Repr U srt (F' ++ [some (fac U s.A)]) { s with numeric := .to F.length } A := by
  obtain ⟨h1, h2, h3, h4, h⟩ := hR
  rcases h with ⟨h0, -⟩ | ⟨h5, h6, h7, k, h8, h9⟩
  · omega
  · constructor
    · unfold SparseSolver.copy
      rw [if_pos h7.nz, (init_eq hU h7.wf h7.rows h7.cols h7.nz).1 h7, ok_bind, hl]
    · exact ⟨h1, h2, h3, h4, Or.inr ⟨h5, h6, h7, F.length, rfl, by simp [← hl]⟩⟩

open Classical in
/-- One statement. -/
theorem step_holds (hU : U.Exact) (hs : IsSort srt) (h : w.Holds U srt vs) (op : SolverStmt R) (hop : SolverVals.SafeStep vs op) :
    (∃ e, w.step U srt op = .error e ∧ SolverVals.step vs op = .error e) ∨
    ∃ w' vs', w.step U srt op = .ok w' ∧ SolverVals.step vs op = .ok vs' ∧ w'.Holds U srt vs' := by
  have hlen := h.1
  have hfree : ∀ k < w.factors.length, ∀ x, (w.factors ++ [x])[k]? = w.factors[k]? := fun k hk x => List.getElem?_append_left hk
  cases op with
  | make A =>
    have hA : A.WF := hop
    have hn := new_eq hU hs w.factors hA
    simp only [step, SolverVals.step]
    by_cases hc : A.rows = A.cols ∧ (A.nnz = 0 ∨ A.NoDup ∧ IsUnit (A.mat A.rows.toNat).det)
    · rw [if_pos hc] at hn ⊢
      obtain ⟨s, e, hR, hto⟩ := hn
      right
      rw [e]
      refine ⟨_, _, rfl, rfl, by simp [hlen], ?_⟩
      rw [join_append, join_append, ← hlen]
      refine h.2.add (by simp) hR ?_ ?_ ?_
      · intro k hk
        by_cases hz : A.nnz = 0
        · rw [if_pos hz]
        · rw [if_neg hz]; exact hfree k hk _
      · intro k hk
        by_cases hz : A.nnz = 0
        · have := hR.2.2.2.2
          rcases this with ⟨-, -, hn⟩ | ⟨h0, -⟩
          · rw [hn] at hk; cases hk
          · omega
        · rw [hto hz] at hk; cases hk; omega
      · intro k f hf
        by_cases hz : A.nnz = 0
        · rw [if_pos hz] at hf
          exact Or.inl (List.getElem?_eq_some_iff.mp hf).1
        · rw [if_neg hz] at hf
          have := (List.getElem?_eq_some_iff.mp hf).1
          rw [hto hz]
          simp at this
          by_cases hk : k < w.factors.length
          · exact Or.inl hk
          · right; congr 1; omega
    · rw [if_neg hc] at hn ⊢
      left
      rw [hn]
      exact ⟨_, rfl, rfl⟩
  | copy i =>
    simp only [step, SolverVals.step]
    rcases find h i with ⟨e1, e2⟩ | ⟨s, A, e1, e2, e3, e4, hR⟩
    · left; rw [e1, e2]; exact ⟨_, rfl, rfl⟩
    · right
      obtain ⟨c1, c2⟩ := copy_ok hU hR (hop A e2) w.factors rfl
      rw [e1, e2, ok_bind, ok_bind, c1]
      refine ⟨_, _, rfl, rfl, by simp [hlen], ?_⟩
      rw [join_append, join_append, ← hlen]
      refine h.2.add (by simp) c2 (fun k hk => hfree k hk _) ?_ ?_
      · intro k hk; cases hk; omega
      · intro k f hf
        have := (List.getElem?_eq_some_iff.mp hf).1
        simp at this
        by_cases hk : k < w.factors.length
        · exact Or.inl hk
        · right
          show NumPtr.to w.factors.length = _
          congr 1; omega
  | move i => exact hop.elim
  | assignMove i j => exact hop.elim
  | assign i j =>
    simp only [step, SolverVals.step]
    rcases find h i with ⟨e1, e2⟩ | ⟨s, A, e1, e2, e3, e4, hR⟩
    · left; rw [e1, e2]; exact ⟨_, rfl, rfl⟩
    · rcases find h j with ⟨f1, f2⟩ | ⟨t, B, f1, f2, f3, f4, hRt⟩
      · left; rw [e1, e2, f1, f2]; exact ⟨_, rfl, rfl⟩
      · right
        have hi : i < w.objs.length := join_lt e3
        have hi' : i < vs.length := by omega
        obtain ⟨F', d1, d2, d3⟩ := h.2.remove (i := i) e3
        obtain ⟨c1, c2⟩ := copy_ok hU hRt (hop B f2) w.factors rfl
        obtain ⟨-, c3⟩ := copy_ok hU hRt (hop B f2) F' d2
        have hd : SparseSolver.destroy (w.factors ++ [some (fac U t.A)]) s = .ok (F' ++ [some (fac U t.A)]) := by
          unfold SparseSolver.destroy at d1 ⊢
          have hcase := hR.2.2.2.2
          rcases hcase with ⟨-, -, hn⟩ | ⟨-, -, -, k, hn, hF⟩
          · rw [hn] at d1 ⊢
            cases d1
            rfl
          · rw [hn] at d1 ⊢
            have hk := (List.getElem?_eq_some_iff.mp hF).1
            simp only [hF] at d1
            simp only [List.getElem?_append_left hk, hF]
            cases d1
            rw [List.set_append_left _ _ hk]
        rw [e1, e2, ok_bind, ok_bind, f1, f2, ok_bind, ok_bind, c1, ok_bind]
        dsimp only
        rw [hd, ok_bind]
        refine ⟨_, _, rfl, rfl, by simp [hlen], ?_⟩
        rw [join_set _ _ hi, join_set _ _ hi']
        have := d3.add (i := i) (by simp) c3 (fun k hk => List.getElem?_append_left hk) ?_ ?_
        · simpa only [Function.update_idem] using this
        · intro k hk; cases hk; omega
        · intro k f hf
          have := (List.getElem?_eq_some_iff.mp hf).1
          simp at this
          by_cases hk : k < F'.length
          · exact Or.inl hk
          · right
            show NumPtr.to w.factors.length = _
            congr 1; omega
  | swap i j =>
    simp only [step, SolverVals.step]
    rcases find h i with ⟨e1, e2⟩ | ⟨s, A, e1, e2, e3, e4, hR⟩
    · left; rw [e1, e2]; exact ⟨_, rfl, rfl⟩
    · rcases find h j with ⟨f1, f2⟩ | ⟨t, B, f1, f2, f3, f4, hRt⟩
      · left; rw [e1, e2, f1, f2]; exact ⟨_, rfl, rfl⟩
      · right
        rw [e1, e2, ok_bind, ok_bind, f1, f2, ok_bind, ok_bind]
        have hi : i < w.objs.length := join_lt e3
        have hj : j < w.objs.length := join_lt f3
        refine ⟨_, _, rfl, rfl, by simp [hlen], ?_⟩
        rw [join_set _ _ (by simpa using hi), join_set _ _ hj, join_set _ _ (by simp; omega), join_set _ _ (by omega),
          update_swap _ i j _ _ e3 f3, update_swap _ i j _ _ e4 f4]
        exact h.2.swap i j
  | destroy i =>
    simp only [step, SolverVals.step]
    rcases find h i with ⟨e1, e2⟩ | ⟨s, A, e1, e2, e3, e4, hR⟩
    · left; rw [e1, e2]; exact ⟨_, rfl, rfl⟩
    · right
      have hi : i < w.objs.length := join_lt e3
      obtain ⟨F', d1, d2, d3⟩ := h.2.remove (i := i) e3
      rw [e1, e2, ok_bind, ok_bind, d1, ok_bind]
      refine ⟨_, _, rfl, rfl, by simp [hlen], ?_⟩
      rw [join_set _ _ hi, join_set _ _ (by omega)]
      exact d3

/-- A program. -/
theorem run_holds (hU : U.Exact) (hs : IsSort srt) : ∀ (ops : List (SolverStmt R)) (w : SolverStore R N) (vs : List (Option (Csr R))),
    w.Holds U srt vs → SolverVals.Safe ops vs →
    (∃ e, run U srt ops w = .error e ∧ SolverVals.run ops vs = .error e) ∨
    ∃ w' vs', run U srt ops w = .ok w' ∧ SolverVals.run ops vs = .ok vs' ∧ w'.Holds U srt vs'
  | [], w, vs, h, _ => Or.inr ⟨w, vs, rfl, rfl, h⟩
  | op :: ops, w, vs, h, hsafe => by
    obtain ⟨h1, h2⟩ := hsafe
    unfold run SolverVals.run
    rw [List.foldlM_cons, List.foldlM_cons]
    rcases step_holds hU hs h op h1 with ⟨e, e1, e2⟩ | ⟨w', vs', e1, e2, h'⟩
    · left; rw [e1, e2]; exact ⟨e, rfl, rfl⟩
    · rw [e1, e2, ok_bind, ok_bind]
      exact run_holds hU hs ops w' vs' h' (h2 vs' e2)

theorem holds_init : Holds U srt (⟨[], []⟩ : SolverStore R N) [] := by
  refine ⟨rfl, ?_, ?_, ?_, ?_⟩ <;> simp

end
end SolverStore

/-- **C93** (partial: no moves, and no copies of solvers whose matrix stores nothing - see `C93_false`).  A program that constructs,
copies, assigns, swaps and destroys solvers does what the same program does with plain matrices: it fails exactly when that one fails, and
otherwise every solver solves with the matrix it has there. -/
theorem C93_values_partial [CommRing R] (U : Umfpack R S N) (hU : U.Exact) (srt : Csr.Sorter) (hs : IsSort srt) (ops : List (SolverStmt R))
    (hsafe : SolverVals.Safe ops []) :
    (∃ e, SolverStore.run U srt ops ⟨[], []⟩ = .error e ∧ SolverVals.run ops [] = .error e) ∨
    ∃ w vs, SolverStore.run U srt ops ⟨[], []⟩ = .ok w ∧ SolverVals.run ops [] = .ok vs ∧
      ∀ (i : Nat) (A : Csr R), SolverVals.get vs i = .ok A → ∀ b out : List R, (b.length : Int) = A.rows → (out.length : Int) = A.rows →
        ∃ x, w.mult U i b out = .ok x ∧ (x.length : Int) = A.rows ∧
          (A.nnz = 0 → x = List.replicate x.length 0) ∧ (A.nnz ≠ 0 → ∀ k, 0 ≤ k → k < A.rows → A.mulVec x k = vecAt b k) := by
  rcases SolverStore.run_holds hU hs ops ⟨[], []⟩ [] SolverStore.holds_init hsafe with ⟨e, h1, h2⟩ | ⟨w, vs, h1, h2, h⟩
  · exact Or.inl ⟨e, h1, h2⟩
  · refine Or.inr ⟨w, vs, h1, h2, ?_⟩
    intro i A hA b out hb ho
    rcases SolverStore.find h i with ⟨-, e2⟩ | ⟨s, A', e1, e2, -, -, hR⟩
    · rw [hA] at e2; cases e2
    · rw [hA] at e2; cases e2
      unfold SolverStore.mult
      rw [e1, ok_bind]
      obtain ⟨⟨x, hx, hl, h0, -⟩, -⟩ := SparseSolver.mult_repr hU hs hR b out hb ho
      refine ⟨x, hx, hl, fun hz => List.eq_replicate_iff.mpr ⟨rfl, h0 hz⟩, fun hz => ?_⟩
      obtain ⟨⟨x', hx', -, hs', -⟩, -⟩ := SparseSolver.undo_repr hU hs hR hz b out hb ho
      rw [hx] at hx'
      cases hx'
      exact hs'

/-- **C93** (partial, as above).  Whatever such a program does, different solvers have different factorisations, which exist, and every
factorisation that exists belongs to a solver: none is lost, none is released twice. -/
theorem C93_apart_partial [CommRing R] (U : Umfpack R S N) (hU : U.Exact) (srt : Csr.Sorter) (hs : IsSort srt) (ops : List (SolverStmt R))
    (hsafe : SolverVals.Safe ops []) (w : SolverStore R N) (h : SolverStore.run U srt ops ⟨[], []⟩ = .ok w) :
    (∀ (i j : Nat) (s t : SparseSolver R) (k : Nat), i ≠ j → w.obj i = .ok s → w.obj j = .ok t → s.numeric = .to k → t.numeric ≠ .to k) ∧
    (∀ (i : Nat) (s : SparseSolver R), w.obj i = .ok s → s.numeric = .null ∨ ∃ k f, s.numeric = .to k ∧ w.factors[k]? = some (some f)) ∧
    (∀ (k : Nat) (f : N), w.factors[k]? = some (some f) → ∃ i s, w.obj i = .ok s ∧ s.numeric = .to k) := by
  rcases SolverStore.run_holds hU hs ops ⟨[], []⟩ [] SolverStore.holds_init hsafe with ⟨e, h1, h2⟩ | ⟨w', vs, h1, h2, hh⟩
  · rw [h] at h1; cases h1
  · rw [h] at h1; cases h1
    have key : ∀ i s, w.obj i = .ok s → w.objs[i]?.join = some s := by
      intro i s hi
      rw [SolverStore.obj_eq] at hi
      rcases hg : w.objs[i]?.join with _ | t
      · rw [hg] at hi; cases hi
      · rw [hg] at hi; cases hi; rfl
    refine ⟨?_, ?_, ?_⟩
    · intro i j s t k hij hi hj
      exact hh.2.apart i j k s t hij (key i s hi) (key j t hj)
    · intro i s hi
      obtain ⟨A, -, hR⟩ := hh.2.here i s (key i s hi)
      rcases hR.2.2.2.2 with ⟨-, -, hn⟩ | ⟨-, -, -, k, hn, hF⟩
      · exact Or.inl hn
      · exact Or.inr ⟨k, _, hn, hF⟩
    · intro k f hf
      obtain ⟨i, s, hi, hk⟩ := hh.2.owned k f hf
      refine ⟨i, s, ?_, hk⟩
      have hi : w.objs[i]?.join = some s := hi
      rw [SolverStore.obj_eq, hi]

/-- **C93.**  After a solver has been moved from, by construction or by assignment, it cannot be destroyed, assigned to or used: its
pointer has no value. -/
theorem C93_moved [CommRing R] (U : Umfpack R S N) (srt : Csr.Sorter) (w w' : SolverStore R N) (i : Nat) (op : SolverStmt R)
    (hop : op = .move i ∨ ∃ j, j ≠ i ∧ op = .assignMove j i) (h : w.step U srt op = .ok w') :
    w'.step U srt (.destroy i) = .error .undefinedBehaviour ∧
    (∀ j t p, w'.obj j = .ok t → SparseSolver.copy U w'.factors t = .ok p → w'.step U srt (.assign i j) = .error .undefinedBehaviour) ∧
    w'.mult U i [] [] = .error .undefinedBehaviour := by
  have hobj : w'.obj i = .ok ⟨0, 0, Csr.empty, .indeterminate⟩ := by
    rcases hop with rfl | ⟨j, hj, rfl⟩
    · simp only [SolverStore.step] at h
      rw [SolverStore.obj_eq] at h
      rcases hg : w.objs[i]?.join with _ | t
      · rw [hg] at h; cases h
      · rw [hg, ok_bind] at h
        have hi := SparseSolver.join_lt hg
        cases h
        unfold SolverStore.obj SparseSolver.move
        dsimp only
        rw [List.getElem?_append_left (by simpa using hi), List.getElem?_set_self hi]
    · simp only [SolverStore.step] at h
      rw [SolverStore.obj_eq] at h
      rcases hg : w.objs[i]?.join with _ | t
      · rw [hg] at h; cases h
      · rw [hg, ok_bind] at h
        have hi := SparseSolver.join_lt hg
        obtain ⟨s, -, h⟩ := bind_eq_ok.mp h
        obtain ⟨F, -, h⟩ := bind_eq_ok.mp h
        cases h
        unfold SolverStore.obj SparseSolver.move
        dsimp only
        rw [List.getElem?_set_ne hj, List.getElem?_set_self hi]
  refine ⟨?_, ?_, ?_⟩
  · simp only [SolverStore.step]
    rw [hobj, ok_bind]
    rfl
  · intro j t p hj hp
    simp only [SolverStore.step]
    rw [hobj, ok_bind, hj, ok_bind, hp, ok_bind]
    rfl
  · unfold SolverStore.mult
    rw [hobj, ok_bind]
    rfl

/-- **C93** does not hold in general: a solver that is moved into another and then destroyed, and a copy of an empty solver that is
destroyed, both read a pointer that no constructor has set. -/
theorem C93_false (U : Umfpack Rat S N) (srt : Csr.Sorter) :
    (SolverStore.run U srt [.make (⟨1, 1, [0, 0], [], []⟩ : Csr Rat), .move 0, .destroy 0] ⟨[], []⟩ = .error .undefinedBehaviour ∧
      ∃ vs, SolverVals.run [.make (⟨1, 1, [0, 0], [], []⟩ : Csr Rat), .move 0, .destroy 0] [] = .ok vs) ∧
    (SolverStore.run U srt [.make (⟨1, 1, [0, 0], [], []⟩ : Csr Rat), .copy 0, .destroy 1] ⟨[], []⟩ = .error .undefinedBehaviour ∧
      ∃ vs, SolverVals.run [.make (⟨1, 1, [0, 0], [], []⟩ : Csr Rat), .copy 0, .destroy 1] [] = .ok vs) := by
  have hm : SolverVals.step [] (.make (⟨1, 1, [0, 0], [], []⟩ : Csr Rat)) = .ok [some ⟨1, 1, [0, 0], [], []⟩] := by
    simp only [SolverVals.step]
    rw [if_pos ⟨rfl, Or.inl rfl⟩]
    rfl
  refine ⟨⟨rfl, ?_⟩, ⟨rfl, ?_⟩⟩
  · unfold SolverVals.run
    rw [List.foldlM_cons, hm, ok_bind]
    exact ⟨_, rfl⟩
  · unfold SolverVals.run
    rw [List.foldlM_cons, hm, ok_bind]
    exact ⟨_, rfl⟩

/-- A program `C93_values_partial` is about: two solvers, one assigned to the other, the first one destroyed. -/
example : SolverVals.Safe [.make SparseSolver.exA, .make SparseSolver.exA, .assign 1 0, .copy 1, .swap 0 2, .destroy 0] [] ∧
    ∃ vs, SolverVals.run [.make SparseSolver.exA, .make SparseSolver.exA, .assign 1 0, .copy 1, .swap 0 2, .destroy 0] [] = .ok vs := by
  obtain ⟨h1, h2, h3, h4⟩ := SparseSolver.exA_ok
  have hm : ∀ vs, SolverVals.step vs (.make SparseSolver.exA) = .ok (vs ++ [some SparseSolver.exA]) := by
    intro vs
    simp only [SolverVals.step]
    rw [if_pos ⟨rfl, Or.inr ⟨h3, h4⟩⟩]
  have hz : 0 < SparseSolver.exA.nnz := by decide +kernel
  constructor
  · refine ⟨h1, ?_⟩
    rintro vs e; rw [hm] at e; cases e
    refine ⟨h1, ?_⟩
    rintro vs e; rw [hm] at e; cases e
    refine ⟨fun A e => by cases e; exact hz, ?_⟩
    rintro vs e; cases e
    refine ⟨fun A e => by cases e; exact hz, ?_⟩
    rintro vs e; cases e
    refine ⟨trivial, ?_⟩
    rintro vs e; cases e
    exact ⟨trivial, fun _ _ => trivial⟩
  · unfold SolverVals.run
    rw [List.foldlM_cons, hm, ok_bind, List.foldlM_cons, hm, ok_bind]
    exact ⟨_, rfl⟩

end Linalg
