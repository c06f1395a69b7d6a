import Verif.Model.SolverApi
import Verif.Props.Minres

/-!
# Solver objects and one-call functions (C84)
-/

set_option linter.unusedSectionVars false

namespace Linalg
open Cpp

section Objects
variable {R : Type}

/-- **C84**: a PCG solver is built exactly when the limit is not negative, the operator is square and the preconditioner has its size. -/
theorem C84_pcg_new (A : Op R) (M : Option (Op R)) (maxIter : Int) (relTol absTol : R) (dot : List R → List R → Res R) :
    ((0 ≤ maxIter ∧ A.rows = A.cols ∧ ∀ P, M = some P → P.rows = A.rows ∧ P.cols = A.rows) →
      Pcg.new A M maxIter relTol absTol dot = .ok ⟨A, M, maxIter, relTol, absTol, dot⟩) ∧
    (¬ (0 ≤ maxIter ∧ A.rows = A.cols ∧ ∀ P, M = some P → P.rows = A.rows ∧ P.cols = A.rows) →
      Pcg.new A M maxIter relTol absTol dot = .error .assertFail) := by
  unfold Pcg.new
  by_cases h1 : 0 ≤ maxIter
  · rw [cassert_true h1, ok_bind]
    by_cases h2 : A.rows = A.cols
    · rw [cassert_true h2, ok_bind]
      cases M with
      | none => exact ⟨fun _ => rfl, fun h => absurd ⟨h1, h2, by simp⟩ h⟩
      | some P =>
        simp only
        by_cases h3 : A.rows = P.cols
        · rw [cassert_true h3, ok_bind]
          by_cases h4 : P.rows = P.cols
          · rw [cassert_true h4, ok_bind]
            refine ⟨fun _ => rfl, fun h => absurd ⟨h1, h2, ?_⟩ h⟩
            intro P' e
            obtain rfl : P = P' := by simpa using e
            exact ⟨by omega, by omega⟩
          · rw [cassert_false h4]
            refine ⟨fun h => ?_, fun _ => rfl⟩
            have := h.2.2 P rfl
            omega
        · rw [cassert_false h3]
          refine ⟨fun h => ?_, fun _ => rfl⟩
          have := h.2.2 P rfl
          omega
    · rw [cassert_false h2]
      exact ⟨fun h => absurd h.2.1 h2, fun _ => rfl⟩
  · rw [cassert_false h1]
    exact ⟨fun h => absurd h.1 h1, fun _ => rfl⟩

theorem Solver.check_ok {A : Op R} {maxIter : Int} (h : 0 ≤ maxIter ∧ A.rows = A.cols) : Solver.check A maxIter = .ok () := by
  unfold Solver.check
  rw [cassert_true h.1, ok_bind, cassert_true h.2]

theorem Solver.check_err {A : Op R} {maxIter : Int} (h : ¬ (0 ≤ maxIter ∧ A.rows = A.cols)) :
    Solver.check A maxIter = .error .assertFail := by
  unfold Solver.check
  by_cases h1 : 0 ≤ maxIter
  · rw [cassert_true h1, ok_bind, cassert_false (fun h2 => h ⟨h1, h2⟩)]
  · rw [cassert_false h1]; rfl

theorem Solver.work_eq [Zero R] (A : Op R) (n : Nat) (h : A.rows = n) : Solver.work A = .ok (List.replicate n 0) := by
  unfold Solver.work
  rw [h]
  exact mkVec_nat n 0

/-- **C84**: the same for MINRES; the work vectors have the size of the operator. -/
theorem C84_minres_new [Zero R] (A : Op R) (n : Nat) (hr : A.rows = n) (maxIter : Int) (relTol absTol : R) (sqrt : R → R)
    (dot : List R → List R → Res R) :
    ((0 ≤ maxIter ∧ A.rows = A.cols) → ∃ w, Minres.new A maxIter relTol absTol sqrt dot
      = .ok (⟨A, maxIter, relTol, absTol, sqrt, dot⟩, w) ∧ w.w0.length = n ∧ w.w1.length = n ∧ w.v0.length = n) ∧
    (¬ (0 ≤ maxIter ∧ A.rows = A.cols) → Minres.new A maxIter relTol absTol sqrt dot = .error .assertFail) := by
  constructor
  · intro h
    unfold Minres.new
    rw [Solver.check_ok h, ok_bind, Solver.work_eq A n hr, ok_bind, ok_bind, ok_bind, ok_bind, ok_bind, cassert_true h.2, ok_bind]
    exact ⟨_, rfl, by simp, by simp, by simp⟩
  · intro h
    unfold Minres.new
    rw [Solver.check_err h]
    rfl

/-- **C84**: the same for PMINRES. -/
theorem C84_pminres_new [Zero R] (A M : Op R) (n : Nat) (hr : A.rows = n) (maxIter : Int) (relTol absTol : R) (sqrt : R → R)
    (dot : List R → List R → Res R) :
    ((0 ≤ maxIter ∧ A.rows = A.cols ∧ M.rows = A.rows ∧ M.cols = A.rows) → ∃ w, Pminres.new A M maxIter relTol absTol sqrt dot
      = .ok (⟨A, maxIter, relTol, absTol, sqrt, dot⟩, w) ∧ w.w0.length = n ∧ w.w1.length = n ∧ w.v0.length = n) ∧
    (¬ (0 ≤ maxIter ∧ A.rows = A.cols ∧ M.rows = A.rows ∧ M.cols = A.rows) →
      Pminres.new A M maxIter relTol absTol sqrt dot = .error .assertFail) := by
  unfold Pminres.new
  by_cases h : 0 ≤ maxIter ∧ A.rows = A.cols
  · rw [Solver.check_ok h, ok_bind, Solver.work_eq A n hr, ok_bind, ok_bind, ok_bind, ok_bind, ok_bind, ok_bind, cassert_true h.2,
      ok_bind]
    by_cases h3 : A.rows = M.cols
    · rw [cassert_true h3, ok_bind]
      by_cases h4 : M.rows = M.cols
      · rw [cassert_true h4, ok_bind]
        exact ⟨fun _ => ⟨_, rfl, by simp, by simp, by simp⟩, fun hn => absurd ⟨h.1, h.2, by omega, by omega⟩ hn⟩
      · rw [cassert_false h4]
        exact ⟨fun hn => by omega, fun _ => rfl⟩
    · rw [cassert_false h3]
      exact ⟨fun hn => by omega, fun _ => rfl⟩
  · rw [Solver.check_err h]
    exact ⟨fun hn => absurd ⟨hn.1, hn.2.1⟩ h, fun _ => rfl⟩

/-- **C84**: `SetOperator` accepts an operator of the same size and no other. -/
theorem C84_setOperator (S : Pcg R) (T : Minres R) (A : Op R) :
    ((A.rows = S.A.rows ∧ A.cols = S.A.cols) → S.setOperator A = .ok { S with A := A }) ∧
    (¬ (A.rows = S.A.rows ∧ A.cols = S.A.cols) → S.setOperator A = .error .assertFail) ∧
    ((A.rows = T.A.rows ∧ A.cols = T.A.cols) → T.setOperator A = .ok { T with A := A }) ∧
    (¬ (A.rows = T.A.rows ∧ A.cols = T.A.cols) → T.setOperator A = .error .assertFail) := by
  unfold Pcg.setOperator Minres.setOperator
  refine ⟨fun h => ?_, fun h => ?_, fun h => ?_, fun h => ?_⟩
  · rw [cassert_true h.1, ok_bind, cassert_true h.2, ok_bind]
  · by_cases h1 : A.rows = S.A.rows
    · rw [cassert_true h1, ok_bind, cassert_false (fun h2 => h ⟨h1, h2⟩)]; rfl
    · rw [cassert_false h1]; rfl
  · rw [cassert_true h.1, ok_bind, cassert_true h.2, ok_bind]
  · by_cases h1 : A.rows = T.A.rows
    · rw [cassert_true h1, ok_bind, cassert_false (fun h2 => h ⟨h1, h2⟩)]; rfl
    · rw [cassert_false h1]; rfl

end Objects

variable {K : Type} [Field K] [LinearOrder K] [IsStrictOrderedRing K]

/-- The start vector is what `Randomize` has written. -/
theorem Solver.randomStart_eq (A : Op K) (n : Nat) (h : A.rows = n) (rand : Int → K) :
    Solver.randomStart A rand = .ok (vecFn n rand) := by
  unfold Solver.randomStart
  rw [h, mkVec_nat, ok_bind]
  have z : List.replicate n (0 : K) = vecFn n (fun _ => 0) := by simp [vecFn]
  rw [z]
  apply fillLoop'
  intro i h h0 h1 _
  rw [vwr_vecFn _ h0 h1]

/-- The tolerance test of PCG on the vector `y`, for a solve started at `x`. -/
def PcgDone (n : Nat) (a : Int → Int → K) (G : (Int → K) → Int → K) (b x : List K) (relTol absTol : K) (y : List K) : Prop :=
  dotFn n (G (residFn n a b y)) (residFn n a b y)
    < max (dotFn n (G (residFn n a b x)) (residFn n a b x) * relTol * relTol) (absTol * absTol)

theorem dot_prec_pos {n : Nat} {m : Int → Int → K} (pm : PosDefOn n m) (r : Int → K) : 0 ≤ dotFn n (matVec n m r) r := by
  rw [dotFn_symm]
  by_cases h : ZeroOn n r
  · rw [dotFn_zero_left h]
  · exact (pm _ h).le

/-- **C84**: `CG(A, b, x)` for symmetric positive definite `A`: the residual of the result passes the test. -/
theorem C84_cg (A : Op K) (n : Nat) (a : Int → Int → K) (hA : A.IsMat n a) (sa : SymmOn n a) (pa : PosDefOn n a) (b x : List K)
    (hb : b.length = n) (hx : x.length = n) (maxIter : Int) (hm : (n : Int) < maxIter) (relTol absTol : K) (ht : absTol ≠ 0) :
    ∃ y, pcgSolve A none b x maxIter relTol absTol = .ok y ∧ y.length = n ∧ PcgDone n a id b x relTol absTol y := by
  unfold pcgSolve
  rw [(C84_pcg_new A none maxIter relTol absTol Vec.inner).1 ⟨by omega, by rw [hA.rows_eq, hA.cols_eq], by simp⟩, ok_bind]
  have hw : ∃ w, Pcg.newWork A = .ok w := by
    unfold Pcg.newWork
    rw [Solver.work_eq A n hA.rows_eq]
    exact ⟨_, rfl⟩
  obtain ⟨w, hw⟩ := hw
  rw [hw, ok_bind]
  have hok : Pcg.Ok (⟨A, none, maxIter, relTol, absTol, Vec.inner⟩ : Pcg K) n a a := ⟨hA, by simp, rfl⟩
  have hspd : Pcg.Spd (⟨A, none, maxIter, relTol, absTol, Vec.inner⟩ : Pcg K) n a a := ⟨sa, pa, by simp, by simp⟩
  obtain ⟨N, st, e, _, _, h2⟩ := C44_terminates _ n a a hok hspd b x hb hx w hm (lt_max_of_lt_right (mul_self_pos.mpr ht))
  rw [e, ok_bind]
  exact ⟨_, rfl, (C42_residual _ n a a hok b x hb hx w N st e).1, h2⟩

/-- **C84**: `PCG(A, M, b, x)` for symmetric positive definite `A` and `M`. -/
theorem C84_pcg (A M : Op K) (n : Nat) (a m : Int → Int → K) (hA : A.IsMat n a) (hM : M.IsMat n m) (sa : SymmOn n a)
    (pa : PosDefOn n a) (sm : SymmOn n m) (pm : PosDefOn n m) (b x : List K) (hb : b.length = n) (hx : x.length = n) (maxIter : Int)
    (hm : (n : Int) < maxIter) (relTol absTol : K) (ht : absTol ≠ 0) :
    ∃ y, pcgSolve A (some M) b x maxIter relTol absTol = .ok y ∧ y.length = n ∧ PcgDone n a (matVec n m) b x relTol absTol y := by
  unfold pcgSolve
  rw [(C84_pcg_new A (some M) maxIter relTol absTol Vec.inner).1 ⟨by omega, by rw [hA.rows_eq, hA.cols_eq], by
    intro P e
    obtain rfl : M = P := by simpa using e
    rw [hM.rows_eq, hM.cols_eq, hA.rows_eq]
    exact ⟨rfl, rfl⟩⟩, ok_bind]
  have hw : ∃ w, Pcg.newWork A = .ok w := by
    unfold Pcg.newWork
    rw [Solver.work_eq A n hA.rows_eq]
    exact ⟨_, rfl⟩
  obtain ⟨w, hw⟩ := hw
  rw [hw, ok_bind]
  have hok : Pcg.Ok (⟨A, some M, maxIter, relTol, absTol, Vec.inner⟩ : Pcg K) n a m :=
    ⟨hA, by intro P e; obtain rfl : M = P := by simpa using e
            exact hM, rfl⟩
  have hspd : Pcg.Spd (⟨A, some M, maxIter, relTol, absTol, Vec.inner⟩ : Pcg K) n a m := ⟨sa, pa, fun _ => sm, fun _ => pm⟩
  obtain ⟨N, st, e, _, _, h2⟩ := C44_terminates _ n a m hok hspd b x hb hx w hm (lt_max_of_lt_right (mul_self_pos.mpr ht))
  rw [e, ok_bind]
  exact ⟨_, rfl, (C42_residual _ n a m hok b x hb hx w N st e).1, h2⟩

/-- **C84**: `CG(A, b)` and `PCG(A, M, b)`: whatever the random start, the result passes the test. -/
theorem C84_random (A M : Op K) (n : Nat) (a m : Int → Int → K) (hA : A.IsMat n a) (hM : M.IsMat n m) (sa : SymmOn n a)
    (pa : PosDefOn n a) (sm : SymmOn n m) (pm : PosDefOn n m) (b : List K) (hb : b.length = n) (rand : Int → K) (maxIter : Int)
    (hm : (n : Int) < maxIter) (relTol absTol : K) (ht : absTol ≠ 0) :
    (∃ y, pcgRandom A none b rand maxIter relTol absTol = .ok y ∧ y.length = n ∧
      PcgDone n a id b (vecFn n rand) relTol absTol y) ∧
    ∃ y, pcgRandom A (some M) b rand maxIter relTol absTol = .ok y ∧ y.length = n ∧
      PcgDone n a (matVec n m) b (vecFn n rand) relTol absTol y := by
  unfold pcgRandom
  rw [Solver.randomStart_eq A n hA.rows_eq, ok_bind, ok_bind]
  exact ⟨C84_cg A n a hA sa pa b _ hb (by simp) maxIter hm relTol absTol ht,
    C84_pcg A M n a m hA hM sa pa sm pm b _ hb (by simp) maxIter hm relTol absTol ht⟩

/-- The tolerance test of MINRES on the vector `y`, for a solve started at `x`; `d` is the square of the norm of the residual. -/
def MinresDone (sqrt : K → K) (n : Nat) (a : Int → Int → K) (G : (Int → K) → Int → K) (b x : List K) (relTol absTol : K)
    (y : List K) : Prop :=
  let tol := max (sqrt (dotFn n (residFn n a b x) (G (residFn n a b x))) * relTol * relTol) (absTol * absTol)
  dotFn n (residFn n a b y) (G (residFn n a b y)) < tol * tol

/-- **C84**: `MINRES(A, b, x)` for symmetric `A` and a system with a solution, from a start that is not exact. -/
theorem C84_minres (sqrt : K → K) (hs : IsSqrt sqrt) (A : Op K) (n : Nat) (a : Int → Int → K) (hA : A.IsMat n a) (sa : SymmOn n a)
    (b x : List K) (hb : b.length = n) (hx : x.length = n) (hcons : Consistent n a b) (hr : ¬ ZeroOn n (residFn n a b x))
    (maxIter : Int) (hm : (n : Int) ≤ maxIter) (relTol absTol : K) (ht : relTol ≠ 0 ∨ absTol ≠ 0) :
    ∃ y, minresSolve sqrt A b x maxIter relTol absTol = .ok y ∧ y.length = n ∧ MinresDone sqrt n a id b x relTol absTol y := by
  unfold minresSolve
  obtain ⟨w, e, h0, h1, h2⟩ := (C84_minres_new A n hA.rows_eq maxIter relTol absTol sqrt Vec.inner).1
    ⟨by omega, by rw [hA.rows_eq, hA.cols_eq]⟩
  rw [e, ok_bind]
  obtain ⟨N, st, e', h⟩ := C82_terminates ⟨A, maxIter, relTol, absTol, sqrt, Vec.inner⟩ n a hA sa rfl hs b x hb hx w h0 h1 h2 hcons hr ht
  rw [e', ok_bind]
  obtain ⟨_, _, hl, _⟩ := C82_minimal ⟨A, maxIter, relTol, absTol, sqrt, Vec.inner⟩ n a hA sa rfl hs b x hb hx w h0 h1 h2 N st e'
  exact ⟨_, rfl, hl, (h hm).2⟩

/-- **C84**: `PMINRES(A, M, b, x)` for symmetric `A`, symmetric positive definite `M` and a system with a solution. -/
theorem C84_pminres (sqrt : K → K) (hs : IsSqrt sqrt) (A M : Op K) (n : Nat) (a m : Int → Int → K) (hA : A.IsMat n a)
    (hM : M.IsMat n m) (sa : SymmOn n a) (sm : SymmOn n m) (pm : PosDefOn n m)
    (b x : List K) (hb : b.length = n) (hx : x.length = n) (hcons : Consistent n a b) (hr : ¬ ZeroOn n (residFn n a b x))
    (maxIter : Int) (hm : (n : Int) ≤ maxIter) (relTol absTol : K) (ht : relTol ≠ 0 ∨ absTol ≠ 0) :
    ∃ y, pminresSolve sqrt A M b x maxIter relTol absTol = .ok y ∧ y.length = n ∧
      MinresDone sqrt n a (matVec n m) b x relTol absTol y := by
  unfold pminresSolve
  obtain ⟨w, e, h0, h1, h2⟩ := (C84_pminres_new A M n hA.rows_eq maxIter relTol absTol sqrt Vec.inner).1
    ⟨by omega, by rw [hA.rows_eq, hA.cols_eq], by rw [hM.rows_eq, hA.rows_eq], by rw [hM.cols_eq, hA.rows_eq]⟩
  rw [e, ok_bind]
  obtain ⟨N, st, e', h⟩ := C83_terminates ⟨A, maxIter, relTol, absTol, sqrt, Vec.inner⟩ M n a m hA hM sa sm pm rfl hs b x hb hx w
    h0 h1 h2 hcons hr ht
  rw [e', ok_bind]
  obtain ⟨_, _, hl, _⟩ := C83_minimal ⟨A, maxIter, relTol, absTol, sqrt, Vec.inner⟩ M n a m hA hM sa sm pm rfl hs b x hb hx w
    h0 h1 h2 N st e'
  exact ⟨_, rfl, hl, (h hm).2⟩

/-- **C84**: `MINRES(A, b)` and `PMINRES(A, M, b)`: whatever the random start, as long as it is not an exact solution. -/
theorem C84_minres_random (sqrt : K → K) (hs : IsSqrt sqrt) (A M : Op K) (n : Nat) (a m : Int → Int → K) (hA : A.IsMat n a)
    (hM : M.IsMat n m) (sa : SymmOn n a) (sm : SymmOn n m) (pm : PosDefOn n m) (b : List K) (hb : b.length = n) (rand : Int → K)
    (hcons : Consistent n a b) (hr : ¬ ZeroOn n (residFn n a b (vecFn n rand))) (maxIter : Int) (hm : (n : Int) ≤ maxIter)
    (relTol absTol : K) (ht : relTol ≠ 0 ∨ absTol ≠ 0) :
    (∃ y, minresRandom sqrt A b rand maxIter relTol absTol = .ok y ∧ y.length = n ∧
      MinresDone sqrt n a id b (vecFn n rand) relTol absTol y) ∧
    ∃ y, pminresRandom sqrt A M b rand maxIter relTol absTol = .ok y ∧ y.length = n ∧
      MinresDone sqrt n a (matVec n m) b (vecFn n rand) relTol absTol y := by
  unfold minresRandom pminresRandom
  rw [Solver.randomStart_eq A n hA.rows_eq, ok_bind, ok_bind]
  exact ⟨C84_minres sqrt hs A n a hA sa b _ hb (by simp) hcons hr maxIter hm relTol absTol ht,
    C84_pminres sqrt hs A M n a m hA hM sa sm pm b _ hb (by simp) hcons hr maxIter hm relTol absTol ht⟩

/-! ## Concrete cases -/

/-- Two steps solve the system. -/
example : pcgSolve exSpd.toOp none [3, 4] [0, 0] 10 0 (1 / 1000) = .ok [1, 1] := by decide +kernel

/-- A preconditioner of the wrong size is rejected. -/
example : pcgSolve exSpd.toOp (some (diagOp [1])) [3, 4] [0, 0] 10 0 (1 / 1000) = .error .assertFail := by decide +kernel

/-- The hypotheses of `C84_cg` hold for a concrete system. -/
example : ∃ y, pcgSolve exSpd.toOp none [3, 4] [0, 0] 10 0 (1 / 1000) = .ok y ∧ y.length = 2 ∧
    PcgDone 2 exSpd.coef id [3, 4] [0, 0] 0 (1 / 1000) y :=
  C84_cg exSpd.toOp 2 exSpd.coef exPcg_ok.A_mat exPcg_spd.a_symm exPcg_spd.a_pos [3, 4] [0, 0] rfl rfl 10 (by decide) 0 (1 / 1000)
    (by decide +kernel)

/-- The hypotheses of `C84_minres` hold for a singular system. -/
example : ∃ y, minresSolve Real.sqrt exLap.toOp [1, -1] [0, 0] 5 0 (1 / 1000) = .ok y ∧ y.length = 2 ∧
    MinresDone Real.sqrt 2 exLap.coef id [1, -1] [0, 0] 0 (1 / 1000) y :=
  C84_minres Real.sqrt isSqrt_real exLap.toOp 2 exLap.coef (C42_sparse_op exLap (by decide +kernel) rfl) exLap_symm [1, -1] [0, 0]
    rfl rfl exLap_consistent exLap_resid 5 (by decide) 0 (1 / 1000) (Or.inr (by norm_num))

/-- And those of `C84_pminres`. -/
example : ∃ y, pminresSolve Real.sqrt exLap.toOp exDiag.toOp [1, -1] [0, 0] 5 0 (1 / 1000) = .ok y ∧ y.length = 2 ∧
    MinresDone Real.sqrt 2 exLap.coef (matVec ((2 : Nat) : Int) exDiag.coef) [1, -1] [0, 0] 0 (1 / 1000) y :=
  C84_pminres Real.sqrt isSqrt_real exLap.toOp exDiag.toOp 2 exLap.coef exDiag.coef (C42_sparse_op exLap (by decide +kernel) rfl)
    (C42_sparse_op exDiag (by decide +kernel) rfl) exLap_symm exDiag_symm exDiag_pos [1, -1] [0, 0]
    rfl rfl exLap_consistent exLap_resid 5 (by decide) 0 (1 / 1000) (Or.inr (by norm_num))

end Linalg
