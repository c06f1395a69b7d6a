import Verif.Proof.Solvers
import Verif.Props.Block
import Mathlib.Algebra.Order.Ring.Rat
import Mathlib.Algebra.Field.Rat

/-!
# Krylov solvers (C42 - C46)
-/

namespace Linalg
open Cpp

variable {K : Type} [Field K] [LinearOrder K]

/-! ## PCG follows the recurrence -/

/-- The model state of a state of the recurrence. -/
def Pcg.ofCg (n : Nat) (s : Cg.State (Int → K)) (Ap : List K) (c : Int) : PcgState K :=
  ⟨vecFn n s.x, vecFn n s.r, vecFn n s.p, vecFn n s.z, Ap, c⟩

theorem Pcg.Ok.precond_eq {S : Pcg K} {n : Nat} {a m : Int → Int → K} (h : S.Ok n a m) (f : Int → K) (z : List K) :
    S.precond (vecFn n f) z = .ok (vecFn n (S.prec n m f)) := by
  unfold precond prec
  cases hM : S.M with
  | none => rfl
  | some M => exact (h.M_mat M hM).multResize_eq f z

theorem Pcg.Ok.start_eq {S : Pcg K} {n : Nat} {a m : Int → Int → K} (h : S.Ok n a m) (b x : Int → K) (w : PcgState K)
    (hw : w.x = vecFn n x) : S.start (vecFn n b) w
      = .ok (ofCg n (Cg.init (matVec n a) (S.prec n m) b x) (vecFn n (matVec n a x)) (w.applied + 1)) := by
  unfold start
  rw [hw, h.A_mat.multResize_eq, ok_bind, Vec.update_vecFn, ok_bind, h.precond_eq, ok_bind]
  rfl

theorem Pcg.Ok.step_eq {S : Pcg K} {n : Nat} {a m : Int → Int → K} (h : S.Ok n a m) (tol : K)
    (s : Cg.State (Int → K)) (Ap : List K) (c : Int) :
    S.step tol (ofCg n s Ap c) =
      (let B := (dotFn n : (Int → K) → (Int → K) → K)
       let L := matVec n a
       let s' := Cg.step B L (S.prec n m) s
       if B s.p (L s.p) = 0 then .error .divZero
       else if B s.p (L s.p) > -10 ^ 12 then
         if B s'.z s'.r < tol then
           .ok (true, ⟨vecFn n s'.x, vecFn n s'.r, vecFn n s.p, vecFn n s'.z, vecFn n (L s.p), c + 1⟩)
         else if B s.z s.r = 0 then .error .divZero
         else .ok (false, ofCg n s' (vecFn n (L s.p)) (c + 1))
       else .error .threw) := by
  simp only
  unfold step
  simp only [ofCg, h.dot_eq]
  rw [h.A_mat.multResize_eq, ok_bind, Vec.inner_vecFn, ok_bind, Vec.inner_vecFn, ok_bind]
  by_cases h1 : dotFn n s.p (matVec n a s.p) = 0
  · rw [if_pos h1]
    unfold fdiv
    rw [if_pos h1]
    rfl
  · rw [if_neg h1]
    rw [show fdiv (dotFn n s.r s.z) (dotFn n s.p (matVec n a s.p)) = .ok (Cg.alpha (dotFn n) (matVec n a) s) from by
      unfold fdiv Cg.alpha; rw [if_neg h1]]
    rw [ok_bind]
    by_cases h2 : dotFn n s.p (matVec n a s.p) > -10 ^ 12
    · rw [if_pos h2, cverify_true h2, ok_bind, Vec.update_vecFn, ok_bind, Vec.inner_vecFn, ok_bind, Vec.update_vecFn,
        ok_bind, h.precond_eq, ok_bind, Vec.inner_vecFn, ok_bind]
      have e1 : (fun i => s.r i - Cg.alpha (dotFn n) (matVec n a) s * matVec n a s.p i)
          = (Cg.step (dotFn n) (matVec n a) (S.prec n m) s).r := rfl
      have e2 : (fun i => s.x i + Cg.alpha (dotFn n) (matVec n a) s * s.p i)
          = (Cg.step (dotFn n) (matVec n a) (S.prec n m) s).x := rfl
      have e3 : S.prec n m (Cg.step (dotFn n) (matVec n a) (S.prec n m) s).r
          = (Cg.step (dotFn n) (matVec n a) (S.prec n m) s).z := rfl
      rw [e1, e2, e3]
      by_cases h3 : dotFn n (Cg.step (dotFn n) (matVec n a) (S.prec n m) s).z
          (Cg.step (dotFn n) (matVec n a) (S.prec n m) s).r < tol
      · rw [if_pos h3, if_pos h3]
      · rw [if_neg h3, if_neg h3]
        by_cases h4 : dotFn n s.z s.r = 0
        · rw [if_pos h4]
          unfold fdiv
          rw [if_pos h4]
          rfl
        · rw [if_neg h4]
          unfold fdiv
          rw [if_neg h4, ok_bind, map_vecFn, Vec.update_vecFn, ok_bind]
          congr 4
          funext i
          rw [mul_comm]
          rfl
    · rw [if_neg h2, cverify_false h2]
      rfl

/-- The final vectors of a run that stopped after reaching the state `s`. -/
def Pcg.At (n : Nat) (st : PcgState K) (s : Cg.State (Int → K)) : Prop :=
  st.x = vecFn n s.x ∧ st.r = vecFn n s.r ∧ st.z = vecFn n s.z

theorem Pcg.Ok.loop_result {S : Pcg K} {n : Nat} {a m : Int → Int → K} (h : S.Ok n a m) (tol : K) (fuel : Nat) (k : Int)
    (s : Cg.State (Int → K)) (Ap : List K) (c : Int) (N : Int) (st : PcgState K)
    (he : S.loop tol fuel k (ofCg n s Ap c) = .ok (N, st)) :
    ∃ j : Nat, 1 ≤ j ∧ j ≤ fuel + 1 ∧ At n st (Cg.seqFrom (dotFn n) (matVec n a) (S.prec n m) s j) ∧
      st.applied = c + j ∧
      ((N = k + j - 1 ∧ dotFn n (Cg.seqFrom (dotFn n) (matVec n a) (S.prec n m) s j).z
          (Cg.seqFrom (dotFn n) (matVec n a) (S.prec n m) s j).r < tol) ∨
        (N = k + j ∧ j = fuel + 1)) := by
  induction fuel generalizing k s Ap c with
  | zero =>
    unfold loop at he
    rw [h.step_eq] at he
    simp only at he
    split at he
    · simp at he
    · split at he
      · split at he
        · next h3 =>
          simp only [ok_bind, if_true, Except.ok.injEq, Prod.mk.injEq] at he
          obtain ⟨rfl, rfl⟩ := he
          exact ⟨1, le_refl _, le_refl _, ⟨rfl, rfl, rfl⟩, rfl, Or.inl ⟨by simp, h3⟩⟩
        · split at he
          · simp at he
          · simp only [ok_bind, Bool.false_eq_true, if_false, Except.ok.injEq, Prod.mk.injEq] at he
            obtain ⟨rfl, rfl⟩ := he
            exact ⟨1, le_refl _, le_refl _, ⟨rfl, rfl, rfl⟩, rfl, Or.inr ⟨rfl, rfl⟩⟩
      · simp at he
  | succ fuel ih =>
    unfold loop at he
    rw [h.step_eq] at he
    simp only at he
    split at he
    · simp at he
    · split at he
      · split at he
        · next h3 =>
          simp only [ok_bind, if_true, Except.ok.injEq, Prod.mk.injEq] at he
          obtain ⟨rfl, rfl⟩ := he
          exact ⟨1, le_refl _, by omega, ⟨rfl, rfl, rfl⟩, rfl, Or.inl ⟨by simp, h3⟩⟩
        · split at he
          · simp at he
          · simp only [ok_bind, Bool.false_eq_true, if_false] at he
            obtain ⟨j, j1, j2, j3, j4, j5⟩ := ih _ _ _ _ he
            rw [Cg.seqFrom_step] at j3 j5
            refine ⟨j + 1, by omega, by omega, j3, by rw [j4]; push_cast; ring, ?_⟩
            rcases j5 with ⟨e, t⟩ | ⟨e, t⟩
            · exact Or.inl ⟨by rw [e]; push_cast; ring, t⟩
            · exact Or.inr ⟨by rw [e]; push_cast; ring, by omega⟩
      · simp at he

/-- The tolerance of a call. -/
def Pcg.tolFn (S : Pcg K) (n : Int) (a m : Int → Int → K) (b x : List K) : K :=
  max (dotFn n (S.prec n m (residFn n a b x)) (residFn n a b x) * S.relTol * S.relTol) (S.absTol * S.absTol)

theorem Pcg.Ok.mult_eq {S : Pcg K} {n : Nat} {a m : Int → Int → K} (h : S.Ok n a m) (b x : List K)
    (hb : b.length = n) (hx : x.length = n) (w : PcgState K) :
    S.mult b x w =
      (let s := Cg.init (matVec n a) (S.prec n m) (vecAt b) (vecAt x)
       let st := ofCg n s (vecFn n (matVec n a (vecAt x))) 1
       if dotFn n s.z s.r < S.tolFn n a m b x then .ok (1, st)
       else S.loop (S.tolFn n a m b x) (S.maxIter - 2).toNat 1 st) := by
  simp only
  unfold mult
  rw [cassert_true (by rw [h.A_mat.rows_eq, hx]), ok_bind, cassert_true (by rw [h.A_mat.rows_eq, hb]), ok_bind]
  have eb : b = vecFn n (vecAt b) := by rw [← hb]; exact eq_vecFn_vecAt b
  have ex : x = vecFn n (vecAt x) := by rw [← hx]; exact eq_vecFn_vecAt x
  have hs := h.start_eq (vecAt b) (vecAt x) { w with x := x, applied := 0 } ex
  rw [← eb] at hs
  rw [hs, ok_bind, h.dot_eq]
  simp only [ofCg]
  rw [Vec.inner_vecFn, ok_bind, ok_bind]
  rfl

theorem vecFn_getAt (n : Nat) (f : Int → K) (i : Int) (h0 : 0 ≤ i) (h1 : i < n) : vecAt (vecFn n f) i = f i :=
  (is_vecFn n f).vecAt_eq h0 h1

/-- What a run that returns has computed. -/
theorem Pcg.Ok.mult_result {S : Pcg K} {n : Nat} {a m : Int → Int → K} (h : S.Ok n a m) (b x : List K)
    (hb : b.length = n) (hx : x.length = n) (w : PcgState K) (N : Int) (st : PcgState K)
    (he : S.mult b x w = .ok (N, st)) :
    ∃ j : Nat, At n st (Cg.seq (dotFn n) (matVec n a) (S.prec n m) (vecAt b) (vecAt x) j) ∧ st.applied = 1 + j ∧
      (j : Int) ≤ max 1 (S.maxIter - 1) ∧
      ((N = max 1 j ∧ dotFn n (Cg.seq (dotFn n) (matVec n a) (S.prec n m) (vecAt b) (vecAt x) j).z
          (Cg.seq (dotFn n) (matVec n a) (S.prec n m) (vecAt b) (vecAt x) j).r < S.tolFn n a m b x) ∨
        (N = max 2 S.maxIter ∧ N = j + 1)) := by
  rw [h.mult_eq b x hb hx w] at he
  simp only at he
  split at he
  · next ht =>
    simp only [Except.ok.injEq, Prod.mk.injEq] at he
    obtain ⟨rfl, rfl⟩ := he
    exact ⟨0, ⟨rfl, rfl, rfl⟩, rfl, by simp, Or.inl ⟨rfl, ht⟩⟩
  · obtain ⟨j, j1, j2, j3, j4, j5⟩ := h.loop_result _ _ _ _ _ _ _ _ he
    rw [← Cg.seq_eq] at j3 j5
    refine ⟨j, j3, j4, by omega, ?_⟩
    rcases j5 with ⟨e, t⟩ | ⟨e, t⟩
    · exact Or.inl ⟨by omega, t⟩
    · exact Or.inr ⟨by omega, by omega⟩

theorem resid_of_at {S : Pcg K} {n : Nat} {a m : Int → Int → K} {b x : List K} {st : PcgState K} {j : Nat}
    (hat : Pcg.At n st (Cg.seq (dotFn n) (matVec n a) (S.prec n m) (vecAt b) (vecAt x) j)) :
    ∀ i, 0 ≤ i → i < (n : Int) →
      (Cg.seq (dotFn n) (matVec n a) (S.prec n m) (vecAt b) (vecAt x) j).r i = residFn n a b st.x i := by
  intro i h0 h1
  rw [Cg.residual (matVec_isLin (n : Int) a), hat.1]
  unfold residFn
  rw [matVec_congr n a (fun q q0 q1 => vecFn_getAt n _ q q0 q1)]
  rfl

theorem prec_congr {S : Pcg K} {n : Nat} {m : Int → Int → K} {f g : Int → K}
    (h : ∀ i, 0 ≤ i → i < (n : Int) → f i = g i) : ∀ i, 0 ≤ i → i < (n : Int) → S.prec n m f i = S.prec n m g i := by
  intro i h0 h1
  unfold Pcg.prec
  cases S.M with
  | none => exact h i h0 h1
  | some M => simp only; rw [matVec_congr n m h]

/-! ## C42: the residual -/

/-- **C42.**  Whenever `Mult` returns, whatever the limit and the tolerances, the internal residual is the true residual
`b - A x` of the returned `x`. -/
theorem C42_residual (S : Pcg K) (n : Nat) (a m : Int → Int → K) (h : S.Ok n a m) (b x : List K) (hb : b.length = n)
    (hx : x.length = n) (w : PcgState K) (N : Int) (st : PcgState K) (he : S.mult b x w = .ok (N, st)) :
    st.x.length = n ∧ VecIs st.r n (residFn n a b st.x) := by
  obtain ⟨j, hat, -⟩ := h.mult_result b x hb hx w N st he
  refine ⟨by rw [hat.1]; simp, ?_⟩
  rw [hat.2.1]
  exact (is_vecFn n _).congr (resid_of_at hat)

/-- **C42.**  The same for one pass of the loop, from any state whose residual is true. -/
theorem C42_step_residual (S : Pcg K) (n : Nat) (a m : Int → Int → K) (h : S.Ok n a m) (b : List K) (s : PcgState K)
    (hx : s.x.length = n) (hp : s.p.length = n) (hz : s.z.length = n) (hr : VecIs s.r n (residFn n a b s.x))
    (tol : K) (stop : Bool) (s' : PcgState K) (he : S.step tol s = .ok (stop, s')) :
    s'.x.length = n ∧ VecIs s'.r n (residFn n a b s'.x) := by
  have es : s = Pcg.ofCg n ⟨vecAt s.x, vecAt s.r, vecAt s.z, vecAt s.p⟩ s.Ap s.applied := by
    have l := hr.length_eq
    have l' : s.r.length = n := by omega
    unfold Pcg.ofCg
    simp only
    conv_lhs => rw [show s = ⟨s.x, s.r, s.p, s.z, s.Ap, s.applied⟩ from rfl]
    congr 1
    · rw [← hx]; exact eq_vecFn_vecAt _
    · rw [← l']; exact eq_vecFn_vecAt _
    · rw [← hp]; exact eq_vecFn_vecAt _
    · rw [← hz]; exact eq_vecFn_vecAt _
  have hat : s'.x = vecFn n (Cg.step (dotFn n) (matVec n a) (S.prec n m) ⟨vecAt s.x, vecAt s.r, vecAt s.z, vecAt s.p⟩).x ∧
      s'.r = vecFn n (Cg.step (dotFn n) (matVec n a) (S.prec n m) ⟨vecAt s.x, vecAt s.r, vecAt s.z, vecAt s.p⟩).r := by
    rw [es, h.step_eq] at he
    simp only at he
    split at he
    · simp at he
    · split at he
      · split at he
        · simp only [Except.ok.injEq, Prod.mk.injEq] at he
          obtain ⟨-, rfl⟩ := he
          exact ⟨rfl, rfl⟩
        · split at he
          · simp at he
          · simp only [Except.ok.injEq, Prod.mk.injEq] at he
            obtain ⟨-, rfl⟩ := he
            exact ⟨rfl, rfl⟩
      · simp at he
  refine ⟨by rw [hat.1]; simp, ?_⟩
  rw [hat.2]
  refine (is_vecFn n _).congr (fun i h0 h1 => ?_)
  unfold residFn
  rw [hat.1, matVec_congr n a (fun q q0 q1 => vecFn_getAt n _ q q0 q1)]
  simp only [Cg.step]
  rw [matVec_lin, matVec_smul]
  simp only [Pi.sub_apply, Pi.add_apply, Pi.smul_apply, smul_eq_mul]
  rw [hr.vecAt_eq h0 h1]
  unfold residFn
  ring

/-- **C42.**  If `Mult` returns with fewer iterations than the limit (the loop is left by `break`, or the initial test
holds), the returned `x` satisfies the stopping test for its true residual. -/
theorem C42_early_stop (S : Pcg K) (n : Nat) (a m : Int → Int → K) (h : S.Ok n a m) (b x : List K) (hb : b.length = n)
    (hx : x.length = n) (w : PcgState K) (N : Int) (st : PcgState K) (he : S.mult b x w = .ok (N, st))
    (hN : N < max 2 S.maxIter) :
    dotFn n (S.prec n m (residFn n a b st.x)) (residFn n a b st.x)
      < max (dotFn n (S.prec n m (residFn n a b x)) (residFn n a b x) * S.relTol * S.relTol) (S.absTol * S.absTol) := by
  obtain ⟨j, hat, -, -, ⟨-, ht⟩ | ⟨e, -⟩⟩ := h.mult_result b x hb hx w N st he
  · rw [Cg.precond] at ht
    have hr := resid_of_at hat
    rw [dotFn_congr (n : Int) (prec_congr (S := S) (m := m) hr) hr] at ht
    exact ht
  · omega

/-- **C42.**  An initial guess that satisfies the test is returned unchanged, after one application of the operator. -/
theorem C42_initial (S : Pcg K) (n : Nat) (a m : Int → Int → K) (h : S.Ok n a m) (b x : List K) (hb : b.length = n)
    (hx : x.length = n) (w : PcgState K)
    (ht : dotFn n (S.prec n m (residFn n a b x)) (residFn n a b x)
      < max (dotFn n (S.prec n m (residFn n a b x)) (residFn n a b x) * S.relTol * S.relTol) (S.absTol * S.absTol)) :
    ∃ st, S.mult b x w = .ok (1, st) ∧ st.x = x ∧ st.applied = 1 := by
  refine ⟨Pcg.ofCg n (Cg.init (matVec n a) (S.prec n m) (vecAt b) (vecAt x)) (vecFn n (matVec n a (vecAt x))) 1,
    ?_, ?_, rfl⟩
  · rw [h.mult_eq b x hb hx w]
    simp only
    rw [if_pos (show dotFn (n : Int) (Cg.init (matVec n a) (S.prec n m) (vecAt b) (vecAt x)).z
      (Cg.init (matVec n a) (S.prec n m) (vecAt b) (vecAt x)).r < S.tolFn n a m b x from ht)]
  · simp only [Pcg.ofCg, Cg.init]
    rw [← hx]
    exact (eq_vecFn_vecAt x).symm

/-- Sizes that do not match are refused. -/
theorem C42_rejects (S : Pcg K) (b x : List K) (w : PcgState K)
    (hbad : (x.length : Int) ≠ S.A.rows ∨ (b.length : Int) ≠ S.A.rows) : S.mult b x w = .error .assertFail := by
  unfold Pcg.mult
  by_cases h1 : (x.length : Int) = S.A.rows
  · rw [cassert_true h1, ok_bind, cassert_false (by tauto)]; rfl
  · rw [cassert_false h1]; rfl

/-! ## C43: iteration counts -/

theorem Pcg.step_applied {S : Pcg K} {tol : K} {s s' : PcgState K} {t : Bool} (h : S.step tol s = .ok (t, s')) :
    s'.applied = s.applied + 1 := by
  unfold step at h
  obtain ⟨_, -, h⟩ := bind_eq_ok.mp h
  obtain ⟨_, -, h⟩ := bind_eq_ok.mp h
  obtain ⟨_, -, h⟩ := bind_eq_ok.mp h
  obtain ⟨_, -, h⟩ := bind_eq_ok.mp h
  obtain ⟨_, -, h⟩ := bind_eq_ok.mp h
  obtain ⟨_, -, h⟩ := bind_eq_ok.mp h
  obtain ⟨_, -, h⟩ := bind_eq_ok.mp h
  obtain ⟨_, -, h⟩ := bind_eq_ok.mp h
  obtain ⟨_, -, h⟩ := bind_eq_ok.mp h
  obtain ⟨_, -, h⟩ := bind_eq_ok.mp h
  split at h
  · simp only [Except.ok.injEq, Prod.mk.injEq] at h
    rw [← h.2]
  · obtain ⟨_, -, h⟩ := bind_eq_ok.mp h
    obtain ⟨_, -, h⟩ := bind_eq_ok.mp h
    simp only [Except.ok.injEq, Prod.mk.injEq] at h
    rw [← h.2]

theorem Pcg.loop_count {S : Pcg K} {tol : K} {fuel : Nat} {k N : Int} {s st : PcgState K}
    (h : S.loop tol fuel k s = .ok (N, st)) :
    (N = k + (st.applied - s.applied) - 1 ∧ k ≤ N ∧ N ≤ k + fuel) ∨
      (N = k + (st.applied - s.applied) ∧ N = k + fuel + 1) := by
  induction fuel generalizing k s with
  | zero =>
    unfold loop at h
    obtain ⟨⟨t, s'⟩, e, h⟩ := bind_eq_ok.mp h
    simp only [Except.ok.injEq, Prod.mk.injEq] at h
    obtain ⟨h1, rfl⟩ := h
    have := step_applied e
    cases t
    · right; simp at h1; omega
    · left; simp at h1; omega
  | succ fuel ih =>
    unfold loop at h
    obtain ⟨⟨t, s'⟩, e, h⟩ := bind_eq_ok.mp h
    have := step_applied e
    cases t
    · simp only [Bool.false_eq_true, if_false] at h
      rcases ih h with h | h
      · left; push_cast; omega
      · right; push_cast; omega
    · simp only [if_true, Except.ok.injEq, Prod.mk.injEq] at h
      obtain ⟨rfl, rfl⟩ := h
      left; push_cast; omega

/-- **C43** (partial: the reported count may exceed the limit; `C43_pcg_false`).  For every operator, preconditioner and
inner product: whenever PCG returns it reports between 1 and `max 2 max_iter` iterations and has applied the operator at
most `max 2 max_iter` times; both bounds are within `max_iter + 1` for a positive limit. -/
theorem C43_pcg_partial (S : Pcg K) (b x : List K) (w : PcgState K) (N : Int) (st : PcgState K)
    (h : S.mult b x w = .ok (N, st)) :
    1 ≤ N ∧ N ≤ max 2 S.maxIter ∧ 1 ≤ st.applied ∧ st.applied ≤ max 2 S.maxIter ∧
      (st.applied = N ∨ st.applied = N + 1 ∨ st.applied = 1) := by
  unfold Pcg.mult at h
  obtain ⟨_, -, h⟩ := bind_eq_ok.mp h
  obtain ⟨_, -, h⟩ := bind_eq_ok.mp h
  obtain ⟨s, e, h⟩ := bind_eq_ok.mp h
  obtain ⟨_, -, h⟩ := bind_eq_ok.mp h
  obtain ⟨_, -, h⟩ := bind_eq_ok.mp h
  have hs : s.applied = 1 := by
    unfold Pcg.start at e
    obtain ⟨_, -, e⟩ := bind_eq_ok.mp e
    obtain ⟨_, -, e⟩ := bind_eq_ok.mp e
    obtain ⟨_, -, e⟩ := bind_eq_ok.mp e
    simp only [Except.ok.injEq] at e
    rw [← e]
    rfl
  split at h
  · simp only [Except.ok.injEq, Prod.mk.injEq] at h
    obtain ⟨rfl, rfl⟩ := h
    omega
  · rcases Pcg.loop_count h with h | h <;> omega

theorem Minres.step_applied {S : Minres K} {tol : K} {s s' : MinresState K} {t : Bool} (h : S.step tol s = .ok (t, s')) :
    s'.applied = s.applied + 1 := by
  unfold step at h
  iterate 12 (obtain ⟨_, -, h⟩ := bind_eq_ok.mp h)
  simp only [Except.ok.injEq, Prod.mk.injEq] at h
  rw [← h.2]

theorem Minres.loop_count {S : Minres K} {tol : K} {fuel : Nat} {k N : Int} {s st : MinresState K}
    (h : S.loop tol fuel k s = .ok (N, st)) :
    (N = k + (st.applied - s.applied) - 1 ∧ k ≤ N ∧ N < k + fuel) ∨
      (N = k + (st.applied - s.applied) ∧ N = k + fuel) := by
  induction fuel generalizing k s with
  | zero =>
    unfold loop at h
    simp only [Except.ok.injEq, Prod.mk.injEq] at h
    obtain ⟨rfl, rfl⟩ := h
    right; simp
  | succ fuel ih =>
    unfold loop at h
    obtain ⟨⟨t, s'⟩, e, h⟩ := bind_eq_ok.mp h
    have := step_applied e
    cases t
    · simp only [Bool.false_eq_true, if_false] at h
      have hs : (swapVecs s').applied = s'.applied := rfl
      rcases ih h with h | h
      · left; push_cast; omega
      · right; push_cast; omega
    · simp only [if_true, Except.ok.injEq, Prod.mk.injEq] at h
      obtain ⟨rfl, rfl⟩ := h
      left; push_cast; omega

/-- **C43** (partial: the reported count may exceed the limit by one; `C43_minres_false`).  Whenever MINRES returns it
has applied the operator between 1 and `max_iter + 1` times and reports that number less one if it stopped early, that
number itself, `max_iter + 1`, if not. -/
theorem C43_minres_partial (S : Minres K) (b x : List K) (w : MinresState K) (N : Int) (st : MinresState K)
    (h : S.mult b x w = .ok (N, st)) (hm : 0 ≤ S.maxIter) :
    1 ≤ N ∧ N ≤ S.maxIter + 1 ∧ 1 ≤ st.applied ∧ st.applied ≤ S.maxIter + 1 ∧
      (N ≤ S.maxIter → st.applied = N + 1) ∧ (N = S.maxIter + 1 → st.applied = N) := by
  unfold Minres.mult at h
  obtain ⟨_, -, h⟩ := bind_eq_ok.mp h
  obtain ⟨_, -, h⟩ := bind_eq_ok.mp h
  obtain ⟨s, e, h⟩ := bind_eq_ok.mp h
  have hs : s.applied = 1 := by
    unfold Minres.start at e
    iterate 3 (obtain ⟨_, -, e⟩ := bind_eq_ok.mp e)
    simp only [Except.ok.injEq] at e
    rw [← e]
  rcases Minres.loop_count h with h | h <;> omega

theorem Pminres.step_applied {S : Minres K} {M : Op K} {tol : K} {s s' : PminresState K} {t : Bool}
    (h : step S M tol s = .ok (t, s')) : s'.applied = s.applied + 1 := by
  unfold step at h
  iterate 14 (obtain ⟨_, -, h⟩ := bind_eq_ok.mp h)
  simp only [Except.ok.injEq, Prod.mk.injEq] at h
  rw [← h.2]

theorem Pminres.loop_count {S : Minres K} {M : Op K} {tol : K} {fuel : Nat} {k N : Int} {s st : PminresState K}
    (h : loop S M tol fuel k s = .ok (N, st)) :
    (N = k + (st.applied - s.applied) - 1 ∧ k ≤ N ∧ N < k + fuel) ∨
      (N = k + (st.applied - s.applied) ∧ N = k + fuel) := by
  induction fuel generalizing k s with
  | zero =>
    unfold loop at h
    simp only [Except.ok.injEq, Prod.mk.injEq] at h
    obtain ⟨rfl, rfl⟩ := h
    right; simp
  | succ fuel ih =>
    unfold loop at h
    obtain ⟨⟨t, s'⟩, e, h⟩ := bind_eq_ok.mp h
    have := step_applied e
    cases t
    · simp only [Bool.false_eq_true, if_false] at h
      have hs : (swapVecs s').applied = s'.applied := rfl
      rcases ih h with h | h
      · left; push_cast; omega
      · right; push_cast; omega
    · simp only [if_true, Except.ok.injEq, Prod.mk.injEq] at h
      obtain ⟨rfl, rfl⟩ := h
      left; push_cast; omega

/-- **C43** (partial, as `C43_minres_partial`), preconditioned MINRES. -/
theorem C43_pminres_partial (S : Minres K) (M : Op K) (b x : List K) (w : PminresState K) (N : Int)
    (st : PminresState K) (h : Pminres.mult S M b x w = .ok (N, st)) (hm : 0 ≤ S.maxIter) :
    1 ≤ N ∧ N ≤ S.maxIter + 1 ∧ 1 ≤ st.applied ∧ st.applied ≤ S.maxIter + 1 ∧
      (N ≤ S.maxIter → st.applied = N + 1) ∧ (N = S.maxIter + 1 → st.applied = N) := by
  unfold Pminres.mult at h
  obtain ⟨_, -, h⟩ := bind_eq_ok.mp h
  obtain ⟨_, -, h⟩ := bind_eq_ok.mp h
  obtain ⟨s, e, h⟩ := bind_eq_ok.mp h
  have hs : s.applied = 1 := by
    unfold Pminres.start at e
    iterate 4 (obtain ⟨_, -, e⟩ := bind_eq_ok.mp e)
    simp only [Except.ok.injEq] at e
    rw [← e]
  rcases Pminres.loop_count h with h | h <;> omega

/-- A diagonal operator for the concrete runs below. -/
def diagOp (d : List Rat) : Op Rat := (Csr.ofDiag d).toOp

/-- **C43** does not hold for PCG: with `max_iter = 1` and a system that needs two steps, `GetNumIterations()` is 2; with
`max_iter = 0` the operator is still applied twice. -/
theorem C43_pcg_false :
    (∃ st, (⟨diagOp [1, 2], none, 1, 0, 1 / 1000, Vec.inner⟩ : Pcg Rat).mult [1, 1] [0, 0] ⟨[], [], [], [], [], 0⟩
      = .ok (2, st)) ∧
    (∃ N st, (⟨diagOp [1, 2], none, 0, 0, 1 / 1000, Vec.inner⟩ : Pcg Rat).mult [1, 1] [0, 0] ⟨[], [], [], [], [], 0⟩
      = .ok (N, st) ∧ st.applied = 2) :=
  ⟨⟨⟨[2/3, 2/3], [1/3, -1/3], [4/9, -2/9], [1/3, -1/3], [1, 2], 2⟩, by decide +kernel⟩,
   ⟨2, ⟨[2/3, 2/3], [1/3, -1/3], [4/9, -2/9], [1/3, -1/3], [1, 2], 2⟩, by decide +kernel, rfl⟩⟩

/-- A square root on a few squares, for concrete runs. -/
def testSqrt (x : Rat) : Rat := if x = 25 then 5 else if x = 576 / 625 then 24 / 25 else if x = 1 then 1 else 0

/-- **C43** does not hold for MINRES: with `max_iter = 1` and a system that needs two steps, `GetNumIterations()` is 2. -/
theorem C43_minres_false :
    ∃ st, (⟨diagOp [1, -1], 1, 0, 1 / 1000, testSqrt, Vec.inner⟩ : Minres Rat).mult [3, 4] [0, 0]
      ⟨[], [0, 0], [0, 0], [0, 0], [0, 0], [0, 0], 0, 0, 0, 0, 0, 0, 0⟩ = .ok (2, st) :=
  ⟨⟨[-21/25, -28/25], [0, 0], [3/5, 4/5], [3/5, 4/5], [96/125, -72/125], [3/5, -4/5], 24/25, -24/5, 1, -7/25, 0, 24/25, 2⟩,
    by decide +kernel⟩

/-! ## C44: orthogonality and finite termination -/

section Spd

theorem Pcg.Spd.prec_symm {S : Pcg K} {n : Nat} {a m : Int → Int → K} (h : S.Spd n a m) (u v : Int → K) :
    dotFn n (S.prec n m u) v = dotFn n u (S.prec n m v) := by
  have h1 := h.m_symm
  unfold prec
  cases hM : S.M with
  | none => rfl
  | some M => exact dotFn_selfAdj (h1 (by rw [hM]; rfl)) u v

theorem Pcg.prec_zero {S : Pcg K} {n : Nat} {m : Int → Int → K} {f : Int → K} (h : ZeroOn n f) :
    ZeroOn n (S.prec n m f) := by
  unfold prec
  cases hM : S.M with
  | none => exact h
  | some M =>
    intro i h0 h1
    unfold matVec
    exact Finset.sum_eq_zero (fun j hj => by
      have := Finset.mem_Ico.mp hj
      rw [h j this.1 this.2, mul_zero])

variable [IsStrictOrderedRing K]

theorem Pcg.Spd.prec_pos {S : Pcg K} {n : Nat} {a m : Int → Int → K} (h : S.Spd n a m) (f : Int → K)
    (hf : ¬ ZeroOn n f) : 0 < dotFn n f (S.prec n m f) := by
  have h1 := h.m_pos
  unfold prec
  cases hM : S.M with
  | none => exact dotFn_self_pos hf
  | some M => exact h1 (by rw [hM]; rfl) f hf

/-- The run of the loop is the recurrence, and has no breakdown. -/
theorem Pcg.Ok.run_eq {S : Pcg K} {n : Nat} {a m : Int → Int → K} (h : S.Ok n a m) {tol : K} {k : Nat}
    {s0 st : PcgState K} {t : Bool} (hr : S.Run tol k s0 t st) (s : Cg.State (Int → K)) (Ap : List K) (c : Int)
    (hs : s0 = ofCg n s Ap c) :
    At n st (Cg.seqFrom (dotFn n) (matVec n a) (S.prec n m) s k) ∧
    (t = false → st.p = vecFn n (Cg.seqFrom (dotFn n) (matVec n a) (S.prec n m) s k).p) ∧
    (t = true → 1 ≤ k) ∧
    (∀ j, j < k → dotFn n (Cg.seqFrom (dotFn n) (matVec n a) (S.prec n m) s j).p
      (matVec n a (Cg.seqFrom (dotFn n) (matVec n a) (S.prec n m) s j).p) ≠ 0) := by
  induction hr generalizing s Ap c with
  | nil s0 =>
    subst hs
    exact ⟨⟨rfl, rfl, rfl⟩, fun _ => rfl, by simp, by simp⟩
  | last s0 st he =>
    subst hs
    rw [h.step_eq] at he
    simp only at he
    split at he
    · simp at he
    · next h1 =>
      split at he
      · split at he
        · simp only [Except.ok.injEq, Prod.mk.injEq] at he
          obtain ⟨-, rfl⟩ := he
          refine ⟨⟨rfl, rfl, rfl⟩, by simp, by simp, fun j hj => ?_⟩
          obtain rfl : j = 0 := by omega
          exact h1
        · split at he <;> simp at he
      · simp at he
  | cons k s0 t s1 st he hr ih =>
    subst hs
    rw [h.step_eq] at he
    simp only at he
    split at he
    · simp at he
    · next h1 =>
      split at he
      · split at he
        · simp at he
        · split at he
          · simp at he
          · simp only [Except.ok.injEq, Prod.mk.injEq] at he
            obtain ⟨i1, i2, i3, i4⟩ := ih _ _ _ he.2.symm
            rw [Cg.seqFrom_step] at i1 i2
            refine ⟨i1, i2, by omega, fun j hj => ?_⟩
            cases j with
            | zero => exact h1
            | succ j =>
              have := i4 j (by omega)
              rw [Cg.seqFrom_step] at this
              exact this
      · simp at he

theorem cg_noBreak_of_curv {S : Pcg K} {n : Nat} {a m : Int → Int → K} (hd : S.Spd n a m) (b x : Int → K) (k : Nat)
    (hk : ∀ j, j < k → dotFn n (Cg.seq (dotFn n) (matVec n a) (S.prec n m) b x j).p
      (matVec n a (Cg.seq (dotFn n) (matVec n a) (S.prec n m) b x j).p) ≠ 0) :
    Cg.NoBreak (dotFn n) (matVec n a) (S.prec n m) b x k := by
  apply cg_noBreak hd.a_symm hd.a_pos hd.prec_symm hd.prec_pos
  intro j hj hz
  apply hk j hj
  apply dotFn_zero_left
  have z0 : ZeroOn n (Cg.seq (dotFn n) (matVec n a) (S.prec n m) b x j).z := by
    rw [Cg.precond]; exact Pcg.prec_zero hz
  cases j with
  | zero => exact z0
  | succ j =>
    intro i h0 h1
    have e : (Cg.seq (dotFn n) (matVec n a) (S.prec n m) b x (j + 1)).p i
        = dotFn n (Cg.seq (dotFn n) (matVec n a) (S.prec n m) b x (j + 1)).z
            (Cg.seq (dotFn n) (matVec n a) (S.prec n m) b x (j + 1)).r
          / dotFn n (Cg.seq (dotFn n) (matVec n a) (S.prec n m) b x j).z
            (Cg.seq (dotFn n) (matVec n a) (S.prec n m) b x j).r * (Cg.seq (dotFn n) (matVec n a) (S.prec n m) b x j).p i
          + (Cg.seq (dotFn n) (matVec n a) (S.prec n m) b x (j + 1)).z i := rfl
    rw [e, dotFn_zero_left z0, zero_div, zero_mul, zero_add]
    exact z0 i h0 h1

/-- **C44.**  For symmetric positive definite `A` (and `M`), whatever the tolerance: the residuals of any two states that
the loop of PCG passes through are orthogonal in the inner product of the preconditioner, and the directions are
`A`-orthogonal. -/
theorem C44_orthogonal (S : Pcg K) (n : Nat) (a m : Int → Int → K) (h : S.Ok n a m) (hd : S.Spd n a m) (b x : List K)
    (hb : b.length = n) (hx : x.length = n) (w : PcgState K) (hw : w.x = x) (tol : K) (s0 : PcgState K)
    (hs : S.start b w = .ok s0) (i j : Nat) (hij : i < j) (si sj : PcgState K) (ti tj : Bool)
    (hi : S.Run tol i s0 ti si) (hj : S.Run tol j s0 tj sj) :
    dotFn n (vecAt si.z) (vecAt sj.r) = 0 ∧
    dotFn n (S.prec n m (residFn n a b si.x)) (residFn n a b sj.x) = 0 ∧
    (ti = false → tj = false → dotFn n (vecAt si.p) (matVec n a (vecAt sj.p)) = 0) := by
  have eb : b = vecFn n (vecAt b) := by rw [← hb]; exact eq_vecFn_vecAt b
  have ex : w.x = vecFn n (vecAt x) := by rw [hw, ← hx]; exact eq_vecFn_vecAt x
  have hs' := h.start_eq (vecAt b) (vecAt x) w ex
  rw [← eb, hs] at hs'
  injection hs' with hs'
  obtain ⟨i1, i2, -, -⟩ := h.run_eq hi _ _ _ hs'
  obtain ⟨j1, j2, -, j4⟩ := h.run_eq hj _ _ _ hs'
  simp only [← Cg.seq_eq] at i1 i2 j1 j2 j4
  have R := Cg.rel (dotFn_bilin (n : Int)) (matVec_isLin n a) (dotFn_selfAdj hd.a_symm) hd.prec_symm (vecAt b) (vecAt x) j
    (cg_noBreak_of_curv hd _ _ j j4)
  have ri := resid_of_at i1
  have rj := resid_of_at j1
  refine ⟨?_, ?_, fun h1 h2 => ?_⟩
  · rw [i1.2.2, j1.2.1, dotFn_congr (n : Int) (vecFn_getAt n _) (vecFn_getAt n _)]
    exact R.z_r i hij
  · have := R.z_r i hij
    rw [Cg.precond, dotFn_congr (n : Int) (prec_congr (S := S) (m := m) ri) rj] at this
    exact this
  · rw [i2 h1, j2 h2, matVec_congr n a (vecFn_getAt n _), dotFn_congr (n : Int) (vecFn_getAt n _) (fun _ _ _ => rfl)]
    exact R.p_Lp i hij

theorem Pcg.Ok.run_ok {S : Pcg K} {n : Nat} {a m : Int → Int → K} (h : S.Ok n a m) (tol : K) (k : Nat)
    (s : Cg.State (Int → K)) (Ap : List K) (c : Int)
    (h1 : ∀ j, j < k → 0 < dotFn n (Cg.seqFrom (dotFn n) (matVec n a) (S.prec n m) s j).p
      (matVec n a (Cg.seqFrom (dotFn n) (matVec n a) (S.prec n m) s j).p))
    (h2 : ∀ j, j < k → dotFn n (Cg.seqFrom (dotFn n) (matVec n a) (S.prec n m) s j).z
      (Cg.seqFrom (dotFn n) (matVec n a) (S.prec n m) s j).r ≠ 0)
    (h3 : ∀ j, 1 ≤ j → j ≤ k → ¬ dotFn n (Cg.seqFrom (dotFn n) (matVec n a) (S.prec n m) s j).z
      (Cg.seqFrom (dotFn n) (matVec n a) (S.prec n m) s j).r < tol) :
    ∃ Ap', S.Run tol k (ofCg n s Ap c) false
      (ofCg n (Cg.seqFrom (dotFn n) (matVec n a) (S.prec n m) s k) Ap' (c + k)) := by
  induction k generalizing s Ap c with
  | zero => exact ⟨Ap, by simpa [Cg.seqFrom] using Pcg.Run.nil _⟩
  | succ k ih =>
    have e := h.step_eq tol s Ap c
    simp only at e
    have p0 := h1 0 (by omega)
    simp only [Cg.seqFrom] at p0
    have c3 := h3 1 (by omega) (by omega)
    simp only [Cg.seqFrom] at c3
    have z0 := h2 0 (by omega)
    simp only [Cg.seqFrom] at z0
    rw [if_neg p0.ne', if_pos (lt_trans (neg_lt_zero.mpr (by positivity)) p0), if_neg c3, if_neg z0] at e
    obtain ⟨Ap', r⟩ := ih (Cg.step (dotFn n) (matVec n a) (S.prec n m) s) (vecFn n (matVec n a s.p)) (c + 1)
      (fun j hj => by rw [Cg.seqFrom_step]; exact h1 (j + 1) (by omega))
      (fun j hj => by rw [Cg.seqFrom_step]; exact h2 (j + 1) (by omega))
      (fun j hj hj' => by rw [Cg.seqFrom_step]; exact h3 (j + 1) (by omega) (by omega))
    refine ⟨Ap', Pcg.Run.cons _ _ _ _ _ e ?_⟩
    rw [Cg.seqFrom_step] at r
    rw [show c + ((k + 1 : Nat) : Int) = c + 1 + k by push_cast; ring]
    exact r

omit [IsStrictOrderedRing K] in
/-- A run followed by a pass that leaves the loop, as the loop runs it. -/
theorem Pcg.loop_of_run {S : Pcg K} {tol : K} {k : Nat} {s0 s1 s2 : PcgState K} {t : Bool} (hr : S.Run tol k s0 t s1)
    (ht : t = false) (he : S.step tol s1 = .ok (true, s2)) (fuel : Nat) (hf : k ≤ fuel) (N : Int) :
    S.loop tol fuel N s0 = .ok (N + k, s2) := by
  induction hr generalizing fuel N with
  | nil s =>
    cases fuel <;> (unfold loop; rw [he, ok_bind]; simp)
  | last s s' h => simp at ht
  | cons k s t s' s'' h r ih =>
    cases fuel with
    | zero => omega
    | succ fuel =>
      unfold loop
      rw [h, ok_bind]
      simp only [Bool.false_eq_true, if_false]
      rw [ih ht he fuel (by omega)]
      congr 2
      push_cast
      ring

theorem cg_zr_pos {S : Pcg K} {n : Nat} {a m : Int → Int → K} (hd : S.Spd n a m) (b x : Int → K) (j : Nat)
    (hr : ¬ ZeroOn n (Cg.seq (dotFn n) (matVec n a) (S.prec n m) b x j).r) :
    0 < dotFn n (Cg.seq (dotFn n) (matVec n a) (S.prec n m) b x j).z (Cg.seq (dotFn n) (matVec n a) (S.prec n m) b x j).r := by
  rw [Cg.precond, dotFn_symm]
  exact hd.prec_pos _ hr

theorem cg_zr_nonneg {S : Pcg K} {n : Nat} {a m : Int → Int → K} (hd : S.Spd n a m) (b x : Int → K) (j : Nat) :
    0 ≤ dotFn n (Cg.seq (dotFn n) (matVec n a) (S.prec n m) b x j).z (Cg.seq (dotFn n) (matVec n a) (S.prec n m) b x j).r := by
  by_cases hr : ZeroOn n (Cg.seq (dotFn n) (matVec n a) (S.prec n m) b x j).r
  · rw [dotFn_symm, dotFn_zero_left hr]
  · exact (cg_zr_pos hd b x j hr).le

theorem cg_pAp_pos {S : Pcg K} {n : Nat} {a m : Int → Int → K} (hd : S.Spd n a m) (b x : Int → K) (k : Nat)
    (hr : ∀ j, j < k → ¬ ZeroOn n (Cg.seq (dotFn n) (matVec n a) (S.prec n m) b x j).r) (j : Nat) (hj : j < k) :
    0 < dotFn n (Cg.seq (dotFn n) (matVec n a) (S.prec n m) b x j).p
      (matVec n a (Cg.seq (dotFn n) (matVec n a) (S.prec n m) b x j).p) := by
  have nb := cg_noBreak hd.a_symm hd.a_pos hd.prec_symm hd.prec_pos b x k hr j hj
  apply hd.a_pos
  intro hz
  exact nb.1 (dotFn_zero_left hz _)

/-- **C44.**  With a test that never stops the loop (tolerance 0 or less), the exact solution is reached after at most `n`
passes, none of which fails. -/
theorem C44_exact (S : Pcg K) (n : Nat) (a m : Int → Int → K) (h : S.Ok n a m) (hd : S.Spd n a m) (b x : List K)
    (hb : b.length = n) (hx : x.length = n) (w : PcgState K) (hw : w.x = x) (tol : K) (ht : tol ≤ 0) :
    ∃ s0 k s, S.start b w = .ok s0 ∧ k ≤ n ∧ S.Run tol k s0 false s ∧ s.x.length = n ∧ ZeroOn n (residFn n a b s.x) := by
  have eb : b = vecFn n (vecAt b) := by rw [← hb]; exact eq_vecFn_vecAt b
  have ex : w.x = vecFn n (vecAt x) := by rw [hw, ← hx]; exact eq_vecFn_vecAt x
  have hs := h.start_eq (vecAt b) (vecAt x) w ex
  rw [← eb] at hs
  have hex := cg_finite hd.a_symm hd.a_pos hd.prec_symm hd.prec_pos (vecAt b) (vecAt x)
  classical
  obtain ⟨hk, hz⟩ := Nat.find_spec hex
  have hmin : ∀ j, j < Nat.find hex → ¬ ZeroOn n (Cg.seq (dotFn n) (matVec n a) (S.prec n m) (vecAt b) (vecAt x) j).r :=
    fun j hj hzj => Nat.find_min hex hj ⟨by omega, hzj⟩
  obtain ⟨Ap', r⟩ := h.run_ok tol (Nat.find hex) (Cg.init (matVec n a) (S.prec n m) (vecAt b) (vecAt x))
    (vecFn n (matVec n a (vecAt x))) (w.applied + 1)
    (fun j hj => by rw [← Cg.seq_eq]; exact cg_pAp_pos hd _ _ _ hmin j hj)
    (fun j hj => by rw [← Cg.seq_eq]; exact (cg_zr_pos hd _ _ j (hmin j hj)).ne')
    (fun j _ _ => by
      rw [← Cg.seq_eq]
      exact not_lt.mpr (le_trans ht (cg_zr_nonneg hd _ _ j)))
  refine ⟨_, Nat.find hex, _, hs, hk, r, by simp [Pcg.ofCg], ?_⟩
  intro i h0 h1
  have hat : Pcg.At n (Pcg.ofCg n (Cg.seqFrom (dotFn n) (matVec n a) (S.prec n m)
      (Cg.init (matVec n a) (S.prec n m) (vecAt b) (vecAt x)) (Nat.find hex)) Ap' (w.applied + 1 + (Nat.find hex : Nat)))
      (Cg.seq (dotFn n) (matVec n a) (S.prec n m) (vecAt b) (vecAt x) (Nat.find hex)) := by
    rw [Cg.seq_eq]; exact ⟨rfl, rfl, rfl⟩
  rw [← resid_of_at hat i h0 h1]
  exact hz i h0 h1

/-- **C44.**  For symmetric positive definite `A` (and `M`), with a positive tolerance and a limit above `n`, `Mult` returns
without error after at most `n` steps, and the result satisfies the test. -/
theorem C44_terminates (S : Pcg K) (n : Nat) (a m : Int → Int → K) (h : S.Ok n a m) (hd : S.Spd n a m) (b x : List K)
    (hb : b.length = n) (hx : x.length = n) (w : PcgState K) (hm : (n : Int) < S.maxIter)
    (ht : 0 < max (dotFn n (S.prec n m (residFn n a b x)) (residFn n a b x) * S.relTol * S.relTol) (S.absTol * S.absTol)) :
    ∃ N st, S.mult b x w = .ok (N, st) ∧ N ≤ max 1 n ∧ st.applied ≤ n + 1 ∧
      dotFn n (S.prec n m (residFn n a b st.x)) (residFn n a b st.x)
        < max (dotFn n (S.prec n m (residFn n a b x)) (residFn n a b x) * S.relTol * S.relTol) (S.absTol * S.absTol) := by
  obtain ⟨k, hk, hz⟩ := cg_finite hd.a_symm hd.a_pos hd.prec_symm hd.prec_pos (vecAt b) (vecAt x)
  have hex : ∃ j, dotFn n (Cg.seq (dotFn n) (matVec n a) (S.prec n m) (vecAt b) (vecAt x) j).z
      (Cg.seq (dotFn n) (matVec n a) (S.prec n m) (vecAt b) (vecAt x) j).r < S.tolFn n a m b x :=
    ⟨k, by rw [dotFn_symm, dotFn_zero_left hz]; exact ht⟩
  classical
  have hJ := Nat.find_spec hex
  have hle : Nat.find hex ≤ k := Nat.find_min' hex (by rw [dotFn_symm, dotFn_zero_left hz]; exact ht)
  have hmin : ∀ j, j < Nat.find hex → ¬ dotFn n (Cg.seq (dotFn n) (matVec n a) (S.prec n m) (vecAt b) (vecAt x) j).z
      (Cg.seq (dotFn n) (matVec n a) (S.prec n m) (vecAt b) (vecAt x) j).r < S.tolFn n a m b x :=
    fun j hj => Nat.find_min hex hj
  generalize Nat.find hex = J at hJ hle hmin
  have hnz : ∀ j, j < J → ¬ ZeroOn n (Cg.seq (dotFn n) (matVec n a) (S.prec n m) (vecAt b) (vecAt x) j).r := by
    intro j hj hzj
    apply hmin j hj
    rw [dotFn_symm, dotFn_zero_left hzj]
    exact ht
  suffices hgoal : ∃ N st, S.mult b x w = .ok (N, st) ∧ N ≤ max 1 n ∧ st.applied ≤ n + 1 ∧ N < max 2 S.maxIter by
    obtain ⟨N, st, e1, e2, e3, e4⟩ := hgoal
    exact ⟨N, st, e1, e2, e3, C42_early_stop S n a m h b x hb hx w N st e1 e4⟩
  have em := h.mult_eq b x hb hx w
  simp only at em
  cases J with
  | zero =>
    simp only [Cg.seq] at hJ
    rw [if_pos hJ] at em
    exact ⟨_, _, em, by omega, by simp [Pcg.ofCg], by omega⟩
  | succ J =>
    have h0 := hmin 0 (by omega)
    simp only [Cg.seq] at h0
    rw [if_neg h0] at em
    obtain ⟨Ap', r⟩ := h.run_ok (S.tolFn n a m b x) J (Cg.init (matVec n a) (S.prec n m) (vecAt b) (vecAt x))
      (vecFn n (matVec n a (vecAt x))) 1
      (fun j hj => by rw [← Cg.seq_eq]; exact cg_pAp_pos hd _ _ _ hnz j (by omega))
      (fun j hj => by rw [← Cg.seq_eq]; exact (cg_zr_pos hd _ _ j (hnz j (by omega))).ne')
      (fun j _ hj => by rw [← Cg.seq_eq]; exact hmin j (by omega))
    have es := h.step_eq (S.tolFn n a m b x) (Cg.seqFrom (dotFn n) (matVec n a) (S.prec n m)
      (Cg.init (matVec n a) (S.prec n m) (vecAt b) (vecAt x)) J) Ap' (1 + J)
    simp only at es
    have p0 := cg_pAp_pos hd (vecAt b) (vecAt x) (J + 1) hnz J (by omega)
    rw [Cg.seq_eq] at p0
    have hJ' : dotFn n (Cg.step (dotFn n) (matVec n a) (S.prec n m) (Cg.seqFrom (dotFn n) (matVec n a) (S.prec n m)
      (Cg.init (matVec n a) (S.prec n m) (vecAt b) (vecAt x)) J)).z
      (Cg.step (dotFn n) (matVec n a) (S.prec n m) (Cg.seqFrom (dotFn n) (matVec n a) (S.prec n m)
      (Cg.init (matVec n a) (S.prec n m) (vecAt b) (vecAt x)) J)).r < S.tolFn n a m b x := by
      rw [Cg.seq_eq] at hJ; exact hJ
    rw [if_neg p0.ne', if_pos (lt_trans (neg_lt_zero.mpr (by positivity)) p0), if_pos hJ'] at es
    rw [Pcg.loop_of_run r rfl es _ (by omega)] at em
    exact ⟨_, _, em, by omega, by simp only; omega, by omega⟩

end Spd

/-- **C42.**  A well-formed square sparse matrix is an operator as the solver theorems want it. -/
theorem C42_sparse_op {R : Type} [NonUnitalNonAssocSemiring R] (A : Csr R) (hA : A.WF) (hsq : A.rows = A.cols) :
    A.toOp.IsMat A.rows A.coef where
  rows_eq := rfl
  cols_eq := hsq.symm
  computes := by
    intro x y hx hy
    obtain ⟨z, e, h⟩ := (C41_sparse_block A hA).1 x y hx hy
    refine ⟨z, e, h.congr (fun i h0 h1 => ?_)⟩
    simp only [Csr.mulVec, matVec, hsq]

/-! ## C45: curvature -/

/-- **C45** (partial: only curvature of `-10^12` or less is reported; `C45_false`).  A pass of the loop throws exactly if
the curvature `<p, A p>` of the direction is at most `-10^12`. -/
theorem C45_step_partial [IsStrictOrderedRing K] (S : Pcg K) (n : Nat) (a m : Int → Int → K) (h : S.Ok n a m) (tol : K)
    (s : PcgState K) (hx : s.x.length = n) (hr : s.r.length = n) (hp : s.p.length = n) (hz : s.z.length = n) :
    S.step tol s = .error .threw ↔ dotFn n (vecAt s.p) (matVec n a (vecAt s.p)) ≤ -10 ^ 12 := by
  have es : s = Pcg.ofCg n ⟨vecAt s.x, vecAt s.r, vecAt s.z, vecAt s.p⟩ s.Ap s.applied := by
    unfold Pcg.ofCg
    simp only
    conv_lhs => rw [show s = ⟨s.x, s.r, s.p, s.z, s.Ap, s.applied⟩ from rfl]
    congr 1
    · rw [← hx]; exact eq_vecFn_vecAt _
    · rw [← hr]; exact eq_vecFn_vecAt _
    · rw [← hp]; exact eq_vecFn_vecAt _
    · rw [← hz]; exact eq_vecFn_vecAt _
  have e := h.step_eq tol ⟨vecAt s.x, vecAt s.r, vecAt s.z, vecAt s.p⟩ s.Ap s.applied
  rw [← es] at e
  rw [e]
  simp only
  split
  · next h1 =>
    rw [h1]
    have : ¬ (0 : K) ≤ -10 ^ 12 := not_le.mpr (neg_lt_zero.mpr (by positivity))
    simp [this]
  · split
    · next h2 =>
      split
      · simp [not_le.mpr h2]
      · split <;> simp [not_le.mpr h2]
    · next h2 => simp [not_lt.mp h2]

theorem Pcg.Ok.loop_threw [IsStrictOrderedRing K] {S : Pcg K} {n : Nat} {a m : Int → Int → K} (h : S.Ok n a m) (tol : K)
    (fuel : Nat) (k : Int) (s : Cg.State (Int → K)) (Ap : List K) (c : Int) :
    S.loop tol fuel k (ofCg n s Ap c) = .error .threw ↔
      ∃ j st, j ≤ fuel ∧ S.Run tol j (ofCg n s Ap c) false st ∧
        dotFn n (vecAt st.p) (matVec n a (vecAt st.p)) ≤ -10 ^ 12 := by
  have hstep : ∀ (s : Cg.State (Int → K)) Ap c, S.step tol (ofCg n s Ap c) = .error .threw ↔
      dotFn n (vecAt (ofCg n s Ap c).p) (matVec n a (vecAt (ofCg n s Ap c).p)) ≤ -10 ^ 12 := fun s Ap c =>
    C45_step_partial S n a m h tol (ofCg n s Ap c) (by simp [ofCg]) (by simp [ofCg]) (by simp [ofCg]) (by simp [ofCg])
  induction fuel generalizing k s Ap c with
  | zero =>
    unfold loop
    constructor
    · intro he
      refine ⟨0, _, le_refl _, Run.nil _, (hstep s Ap c).mp ?_⟩
      cases hs : S.step tol (ofCg n s Ap c) with
      | error e =>
        rw [hs] at he
        injection he with he
        rw [he]
      | ok t => rw [hs, ok_bind] at he; simp at he
    · rintro ⟨j, st, hj, hr, hc⟩
      obtain rfl : j = 0 := by omega
      cases hr
      rw [(hstep s Ap c).mpr hc]
      rfl
  | succ fuel ih =>
    unfold loop
    cases hs : S.step tol (ofCg n s Ap c) with
    | error e =>
      constructor
      · intro he
        refine ⟨0, _, by omega, Run.nil _, (hstep s Ap c).mp ?_⟩
        rw [hs]
        exact congrArg _ (by injection he)
      · rintro ⟨j, st, hj, hr, hc⟩
        cases hr with
        | nil =>
          have := (hstep s Ap c).mpr hc
          rw [hs] at this
          rw [this]
          rfl
        | cons k _ _ s' _ he _ => rw [hs] at he; simp at he
    | ok t =>
      obtain ⟨t, s'⟩ := t
      rw [ok_bind]
      have nothrow : ¬ dotFn n (vecAt (ofCg n s Ap c).p) (matVec n a (vecAt (ofCg n s Ap c).p)) ≤ -10 ^ 12 := by
        intro hc
        have := (hstep s Ap c).mpr hc
        rw [hs] at this
        simp at this
      cases t with
      | true =>
        simp only [if_true]
        constructor
        · intro he; simp at he
        · rintro ⟨j, st, hj, hr, hc⟩
          cases hr with
          | nil => exact absurd hc nothrow
          | cons k _ _ s' _ he _ => rw [hs] at he; simp at he
      | false =>
        simp only [Bool.false_eq_true, if_false]
        have hs2 := hs
        rw [h.step_eq] at hs2
        simp only at hs2
        have e' : s' = ofCg n (Cg.step (dotFn n) (matVec n a) (S.prec n m) s) (vecFn n (matVec n a s.p)) (c + 1) := by
          split at hs2
          · simp at hs2
          · split at hs2
            · split at hs2
              · simp at hs2
              · split at hs2
                · simp at hs2
                · simp only [Except.ok.injEq, Prod.mk.injEq] at hs2
                  exact hs2.2.symm
            · simp at hs2
        rw [e'] at hs ⊢
        refine Iff.trans (ih (k + 1) _ _ _) ?_
        constructor
        · rintro ⟨j, st, hj, hr, hc⟩
          exact ⟨j + 1, st, by omega, Run.cons _ _ _ _ _ hs hr, hc⟩
        · rintro ⟨j, st, hj, hr, hc⟩
          cases hr with
          | nil => exact absurd hc nothrow
          | cons k _ _ s' _ he hr =>
            rw [hs] at he
            simp only [Except.ok.injEq, Prod.mk.injEq, true_and] at he
            subst he
            exact ⟨k, st, by omega, hr, hc⟩

/-- **C45** (partial, as `C45_step_partial`).  `Mult` throws exactly if the initial guess does not satisfy the test and the
loop, within its limit, comes to a direction of curvature `-10^12` or less. -/
theorem C45_mult_partial [IsStrictOrderedRing K] (S : Pcg K) (n : Nat) (a m : Int → Int → K) (h : S.Ok n a m)
    (b x : List K) (hb : b.length = n) (hx : x.length = n) (w : PcgState K) :
    S.mult b x w = .error .threw ↔
      ¬ dotFn n (S.prec n m (residFn n a b x)) (residFn n a b x) < S.tolFn n a m b x ∧
      ∃ (s0 : PcgState K) (j : Nat) (st : PcgState K), S.start b { w with x := x, applied := 0 } = .ok s0 ∧ (j : Int) < max 1 (S.maxIter - 1) ∧
        S.Run (S.tolFn n a m b x) j s0 false st ∧ dotFn n (vecAt st.p) (matVec n a (vecAt st.p)) ≤ -10 ^ 12 := by
  have eb : b = vecFn n (vecAt b) := by rw [← hb]; exact eq_vecFn_vecAt b
  have ex : x = vecFn n (vecAt x) := by rw [← hx]; exact eq_vecFn_vecAt x
  have hs := h.start_eq (vecAt b) (vecAt x) { w with x := x, applied := 0 } ex
  rw [← eb] at hs
  have e := h.mult_eq b x hb hx w
  simp only at e
  rw [e]
  by_cases ht : dotFn n (S.prec n m (residFn n a b x)) (residFn n a b x) < S.tolFn n a m b x
  · rw [if_pos (show dotFn (n : Int) (Cg.init (matVec n a) (S.prec n m) (vecAt b) (vecAt x)).z
      (Cg.init (matVec n a) (S.prec n m) (vecAt b) (vecAt x)).r < S.tolFn n a m b x from ht)]
    simp [ht]
  · rw [if_neg (show ¬ dotFn (n : Int) (Cg.init (matVec n a) (S.prec n m) (vecAt b) (vecAt x)).z
      (Cg.init (matVec n a) (S.prec n m) (vecAt b) (vecAt x)).r < S.tolFn n a m b x from ht), h.loop_threw]
    constructor
    · rintro ⟨j, st, hj, hr, hc⟩
      exact ⟨ht, _, j, st, hs, by omega, hr, hc⟩
    · rintro ⟨-, s0, j, st, hs', hj, hr, hc⟩
      rw [hs] at hs'
      injection hs' with hs'
      subst hs'
      exact ⟨j, st, by omega, hr, hc⟩

/-- **C45** does not hold: with `A = [-1]`, which is negative definite, PCG returns without error. -/
theorem C45_false :
    ∃ st, (⟨diagOp [-1], none, 1, 0, 1 / 1000, Vec.inner⟩ : Pcg Rat).mult [1] [0] ⟨[], [], [], [], [], 0⟩ = .ok (1, st) ∧
      (diagOp [-1]).IsMat 1 (fun _ _ => -1) ∧ ∀ f : Int → Rat, ¬ ZeroOn 1 f → dotFn 1 f (matVec 1 (fun _ _ => -1) f) < 0 := by
  refine ⟨⟨[-1], [0], [1], [0], [-1], 2⟩, by decide +kernel, ?_, ?_⟩
  · refine ⟨rfl, rfl, ?_⟩
    intro x y hx hy
    obtain ⟨z, e, h⟩ := (C42_sparse_op (Csr.ofDiag [(-1 : Rat)]) (by decide +kernel) rfl).computes x y hx hy
    refine ⟨z, e, h.congr (fun i h0 h1 => ?_)⟩
    obtain rfl : i = 0 := by
      have : (Csr.ofDiag [(-1 : Rat)]).toOp.rows = 1 := rfl
      omega
    simp only [matVec]
    apply Finset.sum_congr rfl
    intro j hj
    have := Finset.mem_Ico.mp hj
    have h1 : (Csr.ofDiag [(-1 : Rat)]).rows = 1 := rfl
    obtain rfl : j = 0 := by omega
    congr 1
    decide +kernel
  · intro f hf
    have e : Finset.Ico (0 : Int) 1 = {0} := rfl
    have : f 0 ≠ 0 := fun h => hf (fun i h0 h1 => by 
      obtain rfl : i = 0 := by omega
      exact h)
    simp only [dotFn, matVec, e, Finset.sum_singleton]
    have := mul_self_pos.mpr this
    linarith

/-! ## C46: MINRES at the solution -/

/-- **C46** does not hold: for every operator, preconditioner-free MINRES with `max_iter ≥ 1` started at the exact solution
fails at the first division by the zero residual norm. -/
theorem C46_minres_false (S : Minres K) (n : Nat) (a : Int → Int → K) (hA : S.A.IsMat n a) (hdot : S.dot = Vec.inner)
    (hsq : S.sqrt 0 = 0) (b x : List K) (hb : b.length = n) (hx : x.length = n) (w : MinresState K)
    (hsol : ZeroOn n (residFn n a b x)) (hm : 1 ≤ S.maxIter) : S.mult b x w = .error .assertFail := by
  have eb : b = vecFn n (vecAt b) := by rw [← hb]; exact eq_vecFn_vecAt b
  have ex : x = vecFn n (vecAt x) := by rw [← hx]; exact eq_vecFn_vecAt x
  unfold Minres.mult
  rw [cassert_true (by rw [hA.rows_eq, hx]), ok_bind, cassert_true (by rw [hA.rows_eq, hb]), ok_bind]
  have hq := hA.multResize_eq (vecAt x) w.q
  rw [← ex] at hq
  have hv : Vec.update (fun u v => u - v) b (vecFn n (matVec n a (vecAt x))) = .ok (vecFn n (residFn n a b x)) := by
    conv_lhs => rw [eb]
    rw [Vec.update_vecFn]
    rfl
  unfold Minres.start
  simp only
  rw [hq, ok_bind, hv, ok_bind, hdot, Vec.inner_vecFn, ok_bind, dotFn_zero_left hsol, hsq, ok_bind]
  obtain ⟨fuel, hf⟩ : ∃ fuel, S.maxIter.toNat = fuel + 1 := ⟨S.maxIter.toNat - 1, by omega⟩
  rw [hf]
  unfold Minres.loop Minres.step Minres.divVec
  rw [cassert_false (by simp)]
  rfl

/-- **C46** does not hold for preconditioned MINRES either. -/
theorem C46_pminres_false (S : Minres K) (M : Op K) (n : Nat) (a m : Int → Int → K) (hA : S.A.IsMat n a)
    (hM : M.IsMat n m) (hdot : S.dot = Vec.inner) (hsq : S.sqrt 0 = 0) (b x : List K) (hb : b.length = n)
    (hx : x.length = n) (w : PminresState K) (hsol : ZeroOn n (residFn n a b x)) (hm : 1 ≤ S.maxIter) :
    Pminres.mult S M b x w = .error .assertFail := by
  have eb : b = vecFn n (vecAt b) := by rw [← hb]; exact eq_vecFn_vecAt b
  have ex : x = vecFn n (vecAt x) := by rw [← hx]; exact eq_vecFn_vecAt x
  unfold Pminres.mult
  rw [cassert_true (by rw [hA.rows_eq, hb]), ok_bind, cassert_true (by rw [hA.cols_eq, hx]), ok_bind]
  have hq := hA.multResize_eq (vecAt x) w.q
  rw [← ex] at hq
  have hv : Vec.update (fun u v => u - v) b (vecFn n (matVec n a (vecAt x))) = .ok (vecFn n (residFn n a b x)) := by
    conv_lhs => rw [eb]
    rw [Vec.update_vecFn]
    rfl
  unfold Pminres.start
  simp only
  rw [hq, ok_bind, hv, ok_bind, hM.multResize_eq, ok_bind, hdot, Vec.inner_vecFn, ok_bind, dotFn_symm,
    dotFn_zero_left hsol, hsq, ok_bind]
  obtain ⟨fuel, hf⟩ : ∃ fuel, S.maxIter.toNat = fuel + 1 := ⟨S.maxIter.toNat - 1, by omega⟩
  rw [hf]
  unfold Pminres.loop Pminres.step Minres.divVec
  rw [cassert_false (by simp)]
  rfl

/-- **C46** (partial: only for `max_iter = 0`).  With no pass of the loop, `x` is returned unchanged, whatever the
operator, if the operator itself can be applied. -/
theorem C46_minres_partial (S : Minres K) (n : Nat) (a : Int → Int → K) (hA : S.A.IsMat n a) (hdot : S.dot = Vec.inner)
    (b x : List K) (hb : b.length = n) (hx : x.length = n) (w : MinresState K) (hm : S.maxIter = 0) :
    ∃ st, S.mult b x w = .ok (1, st) ∧ st.x = x := by
  have eb : b = vecFn n (vecAt b) := by rw [← hb]; exact eq_vecFn_vecAt b
  have ex : x = vecFn n (vecAt x) := by rw [← hx]; exact eq_vecFn_vecAt x
  unfold Minres.mult
  rw [cassert_true (by rw [hA.rows_eq, hx]), ok_bind, cassert_true (by rw [hA.rows_eq, hb]), ok_bind]
  have hq := hA.multResize_eq (vecAt x) w.q
  rw [← ex] at hq
  have hv : Vec.update (fun u v => u - v) b (vecFn n (matVec n a (vecAt x))) = .ok (vecFn n (residFn n a b x)) := by
    conv_lhs => rw [eb]
    rw [Vec.update_vecFn]
    rfl
  unfold Minres.start
  simp only
  rw [hq, ok_bind, hv, ok_bind, hdot, Vec.inner_vecFn, ok_bind, ok_bind, hm]
  exact ⟨_, rfl, rfl⟩

/-! ## Concrete cases -/

/-- The matrix `[[2, 1], [1, 3]]`. -/
def exSpd : Csr Rat := ⟨2, 2, [0, 2, 4], [0, 1, 0, 1], [2, 1, 1, 3]⟩

/-- A solver with that matrix, no preconditioner. -/
def exPcg : Pcg Rat := ⟨exSpd.toOp, none, 10, 0, 1 / 1000, Vec.inner⟩

theorem exPcg_ok : exPcg.Ok ((2 : Nat) : Int) exSpd.coef exSpd.coef where
  A_mat := C42_sparse_op exSpd (by decide +kernel) rfl
  M_mat := by intro M h; simp [exPcg] at h
  dot_eq := rfl

theorem exPcg_spd : exPcg.Spd ((2 : Nat) : Int) exSpd.coef exSpd.coef where
  a_symm := by
    intro i j h0 h1 h2 h3
    obtain rfl | rfl : i = 0 ∨ i = 1 := by omega
    all_goals obtain rfl | rfl : j = 0 ∨ j = 1 := by omega
    all_goals decide +kernel
  a_pos := by
    intro f hf
    have e : Finset.Ico (0 : Int) ((2 : Nat) : Int) = {0, 1} := by decide
    have c : exSpd.coef 0 0 = 2 ∧ exSpd.coef 0 1 = 1 ∧ exSpd.coef 1 0 = 1 ∧ exSpd.coef 1 1 = 3 := by decide +kernel
    simp only [dotFn, matVec, e, Finset.sum_pair (show (0 : Int) ≠ 1 by decide), c.1, c.2.1, c.2.2.1, c.2.2.2]
    by_contra hc
    apply hf
    have h0 : f 0 = 0 := by nlinarith [sq_nonneg (f 0), sq_nonneg (f 1), sq_nonneg (f 0 + f 1)]
    have h1 : f 1 = 0 := by nlinarith [sq_nonneg (f 0), sq_nonneg (f 1), sq_nonneg (f 0 + f 1)]
    intro i i0 i1
    obtain rfl | rfl : i = 0 ∨ i = 1 := by omega
    · exact h0
    · exact h1
  m_symm := by intro h; simp [exPcg] at h
  m_pos := by intro h; simp [exPcg] at h

/-- Two steps solve the system. -/
example : (exPcg.mult [3, 4] [0, 0] ⟨[], [], [], [], [], 0⟩).map (fun t => (t.1, t.2.x, t.2.r))
    = .ok (2, [1, 1], [0, 0]) := by decide +kernel

example : ∃ N st, exPcg.mult [3, 4] [0, 0] ⟨[], [], [], [], [], 0⟩ = .ok (N, st) ∧ N ≤ max 1 ((2 : Nat) : Int) := by
  obtain ⟨N, st, h, hN, -⟩ := C44_terminates exPcg 2 exSpd.coef exSpd.coef exPcg_ok exPcg_spd [3, 4] [0, 0] rfl rfl
    ⟨[], [], [], [], [], 0⟩ (by decide) (lt_max_of_lt_right (by decide +kernel))
  exact ⟨N, st, h, hN⟩

/-- **C44.**  The limit must be above `n`: with `max_iter = n` only `n - 1` directions are used, and a system of two equations, solved without
rounding, is left with a residual. -/
theorem C44_limit_false : exPcg.Ok ((2 : Nat) : Int) exSpd.coef exSpd.coef ∧ exPcg.Spd ((2 : Nat) : Int) exSpd.coef exSpd.coef ∧
    (({ exPcg with maxIter := 2 } : Pcg Rat).mult [3, 4] [0, 0] ⟨[], [], [], [], [], 0⟩).map (fun t => (t.1, t.2.x, t.2.r))
      = .ok (2, [5 / 6, 10 / 9], [2 / 9, -1 / 6]) ∧
    (({ exPcg with maxIter := 3 } : Pcg Rat).mult [3, 4] [0, 0] ⟨[], [], [], [], [], 0⟩).map (fun t => (t.1, t.2.x, t.2.r))
      = .ok (2, [1, 1], [0, 0]) :=
  ⟨exPcg_ok, exPcg_spd, by decide +kernel, by decide +kernel⟩

/-- With both tolerances zero the test never holds: after the exact solution is reached, the next pass divides `0` by
`0`. -/
example : ({ exPcg with absTol := 0 } : Pcg Rat).mult [3, 4] [0, 0] ⟨[], [], [], [], [], 0⟩ = .error .divZero := by
  decide +kernel

/-- The hypotheses of `C46_minres_false` hold for a concrete system. -/
example : (⟨exSpd.toOp, 5, 0, 1 / 1000, testSqrt, Vec.inner⟩ : Minres Rat).mult [3, 4] [1, 1]
    ⟨[], [0, 0], [0, 0], [0, 0], [0, 0], [0, 0], 0, 0, 0, 0, 0, 0, 0⟩ = .error .assertFail :=
  C46_minres_false _ 2 exSpd.coef (C42_sparse_op exSpd (by decide +kernel) rfl) rfl (by decide +kernel) _ _ rfl rfl _
    (by
      intro i h0 h1
      obtain rfl | rfl : i = 0 ∨ i = 1 := by omega
      · decide +kernel
      · decide +kernel) (by decide)

end Linalg
