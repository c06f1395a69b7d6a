import Verif.Proof.Minres
import Verif.Props.Solvers
import Mathlib.Analysis.Real.Sqrt

/-!
# MINRES (C82, C83)
-/

namespace Linalg
open Cpp

set_option linter.unusedSectionVars false

variable {K : Type} [Field K] [LinearOrder K]

/-! ## The model follows the recurrence -/

/-- The model state of a state of the recurrence. -/
def Minres.ofMr (n : Nat) (s : Mr.State K (Int → K)) (q : List K) (c : Int) : MinresState K :=
  ⟨vecFn n s.x, vecFn n s.w0, vecFn n s.w1, vecFn n s.v0, vecFn n s.v1, q, s.beta, s.eta, s.gamma, s.gamma2, s.sigma, s.sigma2, c⟩

theorem Minres.divVec_vecFn (n : Nat) (f : Int → K) {c : K} (hc : c ≠ 0) :
    Minres.divVec (vecFn n f) c = .ok (vecFn n (c⁻¹ • f)) := by
  unfold divVec
  rw [cassert_true hc, ok_bind, map_vecFn]
  congr 1
  exact congrArg _ (funext fun i => div_eq_inv_mul _ _)

theorem Minres.divVec_zero (v : List K) : Minres.divVec v 0 = .error .assertFail := by
  unfold divVec
  rw [cassert_false (by simp)]
  rfl

theorem fdiv_ok {a c : K} (hc : c ≠ 0) : fdiv a c = .ok (a / c) := by
  unfold fdiv
  rw [if_neg hc]

theorem fdiv_zero {a c : K} (hc : c = 0) : fdiv a c = .error .divZero := by
  unfold fdiv
  rw [if_pos hc]

/-- MINRES: the loop is that of the recurrence without preconditioner. -/
def Minres.mrLoop (S : Minres K) (tol : K) (n : Nat) (a : Int → Int → K) (hA : S.A.IsMat n a) (hdot : S.dot = Vec.inner) :
    MrLoop (dotFn n) (matVec n a) id S.sqrt tol (MinresState K) where
  stepf := S.step tol
  swap := Minres.swapVecs
  loop := S.loop tol
  emb := Minres.ofMr n
  loop_zero := fun _ _ => rfl
  loop_succ := fun _ _ _ => rfl
  swap_swap := fun _ => rfl
  step_beta := by
    intro s q c h
    unfold Minres.step
    simp only [Minres.ofMr, h]
    rw [Minres.divVec_zero]
    rfl
  step_rho := by
    intro s q c h hr
    unfold Minres.step
    simp only [Minres.ofMr, hdot]
    rw [Minres.divVec_vecFn n _ h, ok_bind, hA.multResize_eq, ok_bind, Vec.inner_vecFn, ok_bind, hA.cols_eq, Vec.update3_vecFn,
      ok_bind, Vec.inner_vecFn, ok_bind]
    change (fdiv 1 (Mr.rho1 (dotFn n) (matVec n a) id S.sqrt s) >>= _) = _
    rw [fdiv_zero hr]
    rfl
  step_ok := by
    intro s q c h hr
    refine ⟨vecFn n (matVec n a (Mr.cur s)), ?_⟩
    unfold Minres.step
    simp only [Minres.ofMr, hdot]
    rw [Minres.divVec_vecFn n _ h, ok_bind, hA.multResize_eq, ok_bind, Vec.inner_vecFn, ok_bind, hA.cols_eq, Vec.update3_vecFn,
      ok_bind, Vec.inner_vecFn, ok_bind]
    have hr' : S.sqrt ((s.gamma2 * dotFn n (s.beta⁻¹ • s.v1) (matVec n a (s.beta⁻¹ • s.v1)) - s.gamma * s.sigma2 * s.beta)
        * (s.gamma2 * dotFn n (s.beta⁻¹ • s.v1) (matVec n a (s.beta⁻¹ • s.v1)) - s.gamma * s.sigma2 * s.beta)
        + S.sqrt (dotFn n (fun i => matVec n a (s.beta⁻¹ • s.v1) i - s.beta * s.v0 i
            - dotFn n (s.beta⁻¹ • s.v1) (matVec n a (s.beta⁻¹ • s.v1)) * (s.beta⁻¹ • s.v1) i)
          (fun i => matVec n a (s.beta⁻¹ • s.v1) i - s.beta * s.v0 i
            - dotFn n (s.beta⁻¹ • s.v1) (matVec n a (s.beta⁻¹ • s.v1)) * (s.beta⁻¹ • s.v1) i))
        * S.sqrt (dotFn n (fun i => matVec n a (s.beta⁻¹ • s.v1) i - s.beta * s.v0 i
            - dotFn n (s.beta⁻¹ • s.v1) (matVec n a (s.beta⁻¹ • s.v1)) * (s.beta⁻¹ • s.v1) i)
          (fun i => matVec n a (s.beta⁻¹ • s.v1) i - s.beta * s.v0 i
            - dotFn n (s.beta⁻¹ • s.v1) (matVec n a (s.beta⁻¹ • s.v1)) * (s.beta⁻¹ • s.v1) i))) ≠ 0 := hr
    rw [fdiv_ok hr', ok_bind, fdiv_ok hr', ok_bind, fdiv_ok hr', ok_bind, Vec.update3_vecFn, ok_bind, fdiv_ok hr', ok_bind,
      Vec.update2_vecFn, ok_bind, fdiv_ok hr', ok_bind]
    rfl

theorem Minres.start_eq (S : Minres K) {n : Nat} {a : Int → Int → K} (hA : S.A.IsMat n a) (hdot : S.dot = Vec.inner) (b x : Int → K)
    (w : MinresState K) (h0 : w.w0.length = n) (h1 : w.w1.length = n) (h2 : w.v0.length = n) :
    S.start (vecFn n b) (vecFn n x) w
      = .ok (Minres.ofMr n (Mr.init (dotFn n) (matVec n a) id S.sqrt b x) (vecFn n (matVec n a x)) 1) := by
  unfold start
  rw [hA.multResize_eq, ok_bind, Vec.update_vecFn, ok_bind, hdot, Vec.inner_vecFn, ok_bind, h0, h1, h2]
  have z : List.replicate n (0 : K) = vecFn n (0 : Int → K) := by
    simp [vecFn]
  rw [z]
  rfl

/-- The model state of a state of the recurrence, with the preconditioned Lanczos vector. -/
def Pminres.ofMr (n : Nat) (m : Int → Int → K) (s : Mr.State K (Int → K)) (q : List K) (c : Int) : PminresState K :=
  ⟨vecFn n s.x, vecFn n s.w0, vecFn n s.w1, vecFn n s.v0, vecFn n s.v1, vecFn n (matVec n m s.v1), q, s.beta, s.eta, s.gamma,
    s.gamma2, s.sigma, s.sigma2, c⟩

/-- PMINRES: the loop is that of the recurrence with preconditioner. -/
def Pminres.mrLoop (S : Minres K) (M : Op K) (tol : K) (n : Nat) (a m : Int → Int → K) (hA : S.A.IsMat n a) (hM : M.IsMat n m)
    (hdot : S.dot = Vec.inner) : MrLoop (dotFn n) (matVec n a) (matVec n m) S.sqrt tol (PminresState K) where
  stepf := Pminres.step S M tol
  swap := Pminres.swapVecs
  loop := Pminres.loop S M tol
  emb := Pminres.ofMr n m
  loop_zero := fun _ _ => rfl
  loop_succ := fun _ _ _ => rfl
  swap_swap := fun _ => rfl
  step_beta := by
    intro s q c h
    unfold Pminres.step
    simp only [Pminres.ofMr, h]
    rw [Minres.divVec_zero]
    rfl
  step_rho := by
    intro s q c h hr
    unfold Pminres.step
    simp only [Pminres.ofMr, hdot]
    rw [Minres.divVec_vecFn n _ h, ok_bind, Minres.divVec_vecFn n _ h, ok_bind, ← matVec_smul, hA.multResize_eq, ok_bind,
      Vec.inner_vecFn, ok_bind, hA.cols_eq, Vec.update3_vecFn, ok_bind, hM.multResize_eq, ok_bind, Vec.inner_vecFn, ok_bind]
    change (fdiv 1 (Mr.rho1 (dotFn n) (matVec n a) (matVec n m) S.sqrt s) >>= _) = _
    rw [fdiv_zero hr]
    rfl
  step_ok := by
    intro s q c h hr
    refine ⟨vecFn n (matVec n m (Mr.cur s)), ?_⟩
    unfold Pminres.step
    simp only [Pminres.ofMr, hdot]
    rw [Minres.divVec_vecFn n _ h, ok_bind, Minres.divVec_vecFn n _ h, ok_bind, ← matVec_smul, hA.multResize_eq, ok_bind,
      Vec.inner_vecFn, ok_bind, hA.cols_eq, Vec.update3_vecFn, ok_bind, hM.multResize_eq, ok_bind, Vec.inner_vecFn, ok_bind]
    have hr' : S.sqrt ((s.gamma2 * dotFn n (matVec n m (s.beta⁻¹ • s.v1)) (matVec n a (matVec n m (s.beta⁻¹ • s.v1)))
          - s.gamma * s.sigma2 * s.beta)
        * (s.gamma2 * dotFn n (matVec n m (s.beta⁻¹ • s.v1)) (matVec n a (matVec n m (s.beta⁻¹ • s.v1))) - s.gamma * s.sigma2 * s.beta)
        + S.sqrt (dotFn n (fun i => matVec n a (matVec n m (s.beta⁻¹ • s.v1)) i - s.beta * s.v0 i
            - dotFn n (matVec n m (s.beta⁻¹ • s.v1)) (matVec n a (matVec n m (s.beta⁻¹ • s.v1))) * (s.beta⁻¹ • s.v1) i)
          (matVec n m (fun i => matVec n a (matVec n m (s.beta⁻¹ • s.v1)) i - s.beta * s.v0 i
            - dotFn n (matVec n m (s.beta⁻¹ • s.v1)) (matVec n a (matVec n m (s.beta⁻¹ • s.v1))) * (s.beta⁻¹ • s.v1) i)))
        * S.sqrt (dotFn n (fun i => matVec n a (matVec n m (s.beta⁻¹ • s.v1)) i - s.beta * s.v0 i
            - dotFn n (matVec n m (s.beta⁻¹ • s.v1)) (matVec n a (matVec n m (s.beta⁻¹ • s.v1))) * (s.beta⁻¹ • s.v1) i)
          (matVec n m (fun i => matVec n a (matVec n m (s.beta⁻¹ • s.v1)) i - s.beta * s.v0 i
            - dotFn n (matVec n m (s.beta⁻¹ • s.v1)) (matVec n a (matVec n m (s.beta⁻¹ • s.v1))) * (s.beta⁻¹ • s.v1) i)))) ≠ 0 := hr
    rw [fdiv_ok hr', ok_bind, fdiv_ok hr', ok_bind, fdiv_ok hr', ok_bind, Vec.update3_vecFn, ok_bind, fdiv_ok hr', ok_bind,
      Vec.update2_vecFn, ok_bind, fdiv_ok hr', ok_bind]
    rfl

theorem Pminres.start_eq (S : Minres K) (M : Op K) {n : Nat} {a m : Int → Int → K} (hA : S.A.IsMat n a) (hM : M.IsMat n m)
    (hdot : S.dot = Vec.inner) (b x : Int → K) (w : PminresState K) (h0 : w.w0.length = n) (h1 : w.w1.length = n)
    (h2 : w.v0.length = n) : Pminres.start S M (vecFn n b) (vecFn n x) w
      = .ok (Pminres.ofMr n m (Mr.init (dotFn n) (matVec n a) (matVec n m) S.sqrt b x) (vecFn n (matVec n a x)) 1) := by
  unfold start
  rw [hA.multResize_eq, ok_bind, Vec.update_vecFn, ok_bind, hM.multResize_eq, ok_bind, hdot, Vec.inner_vecFn, ok_bind, h0, h1, h2,
    dotFn_symm]
  have z : List.replicate n (0 : K) = vecFn n (0 : Int → K) := by
    simp [vecFn]
  rw [z]
  rfl

/-! ## What holds for the recurrence, for any preconditioner -/

section Core
variable [IsStrictOrderedRing K] {n : Nat} {a : Int → Int → K} {G : (Int → K) → Int → K} {sqrt : K → K}

/-- The function `vecFn n f` has the entries of `f`. -/
theorem vecAt_vecFn_on (n : Nat) (f : Int → K) : ∀ i : Int, 0 ≤ i → i < n → vecAt (vecFn n f) i = f i :=
  fun _ h0 h1 => (is_vecFn n f).vecAt_eq h0 h1

theorem resid_vecFn (n : Nat) (a : Int → Int → K) (b : List K) (f : Int → K) :
    residFn n a b (vecFn n f) = vecAt b - matVec n a f := by
  funext i
  unfold residFn
  rw [Pi.sub_apply, matVec_congr n a (vecAt_vecFn_on n f)]

/-- The iterate of the recurrence has the smallest residual over the Krylov space. -/
theorem mr_core (H : Mr.Hyp (dotFn n) (matVec n a) G sqrt) (b x : List K) (k : Nat)
    (hk : Mr.NoBreak (dotFn n) (matVec n a) G sqrt (vecAt b) (vecAt x) k) :
    let s := Mr.seq (dotFn n) (matVec n a) G sqrt (vecAt b) (vecAt x) k
    let r := residFn n a b (vecFn n s.x)
    s.eta * s.eta = dotFn n r (G r) ∧
    (∃ c : Nat → K, ∀ i : Int, 0 ≤ i → i < n → vecAt (vecFn n s.x) i = comb x (Mr.kry (matVec n a) G (residFn n a b x)) k c i) ∧
    ∀ c : Nat → K, dotFn n r (G r)
      ≤ dotFn n (vecAt b - matVec n a (comb x (Mr.kry (matVec n a) G (residFn n a b x)) k c))
          (G (vecAt b - matVec n a (comb x (Mr.kry (matVec n a) G (residFn n a b x)) k c))) := by
  have hc : ∀ c : Nat → K, comb x (Mr.kry (matVec n a) G (residFn n a b x)) k c
      = vecAt x + ∑ j ∈ Finset.range k, c j • Mr.kry (matVec n a) G (vecAt b - matVec n a (vecAt x)) j := by
    intro c
    funext i
    simp only [comb, Pi.add_apply, Finset.sum_apply, Pi.smul_apply, smul_eq_mul]
    rfl
  obtain ⟨m1, m2⟩ := Mr.minimal_krylov H k hk
  refine ⟨?_, ?_, ?_⟩
  · rw [resid_vecFn]
    exact (Mr.eta_sq H k hk).symm
  · obtain ⟨c, e⟩ := Mr.krylov_mem_iff.mp m1
    refine ⟨c, fun i h0 h1 => ?_⟩
    rw [vecAt_vecFn_on n _ i h0 h1, hc, ← e]
    simp
  · intro c
    rw [resid_vecFn, hc]
    exact m2 _ (Mr.krylov_mem_iff.mpr ⟨c, rfl⟩)

/-- For a system that has a solution and a start that is none, the loop ends; with `n` passes allowed the test succeeds. -/
theorem mr_term {σ : Type} {tol : K} (M : MrLoop (dotFn n) (matVec n a) G sqrt tol σ) (H : Mr.Hyp (dotFn n) (matVec n a) G sqrt)
    (pG : ∀ f, ¬ ZeroOn n f → 0 < dotFn n f (G f)) (b x : List K) (hcons : Consistent n a b)
    (h0 : ¬ ZeroOn n (residFn n a b x)) (ht : 0 < tol) (fuel : Nat) (q : List K) :
    ∃ N st, M.loop fuel 1 (M.emb (Mr.seq (dotFn n) (matVec n a) G sqrt (vecAt b) (vecAt x) 0) q 1) = .ok (N, st) ∧
      (n ≤ fuel → N ≤ n) := by
  set S := Mr.seq (dotFn n) (matVec n a) G sqrt (vecAt b) (vecAt x) with hS
  have hz : ∀ k, (S k).beta = 0 → |(S k).eta| < tol := by
    intro k hk
    rw [mr_eta_zero k hk, abs_zero]
    exact ht
  have hb0 : (S 0).beta ≠ 0 := by
    intro h
    have e := Mr.beta_sq (b := vecAt b) (x := vecAt x) H 0
    rw [← hS, h, mul_zero] at e
    exact (pG _ h0).ne e
  have hb : ∀ i, (∀ l, 1 ≤ l → l ≤ i → ¬ |(S l).eta| < tol) → ∀ j, j ≤ i → (S j).beta ≠ 0 := by
    intro i hi j hj
    rcases Nat.eq_zero_or_pos j with h | h
    · subst h; exact hb0
    · exact fun hj0 => hi j h hj (hz j hj0)
  have hok : ∀ i, i < fuel → (∀ l, 1 ≤ l → l ≤ i → ¬ |(S (0 + l)).eta| < tol) →
      (S (0 + i)).beta ≠ 0 ∧ Mr.rho1 (dotFn n) (matVec n a) G sqrt (S (0 + i)) ≠ 0 := by
    intro i _ hl
    simp only [Nat.zero_add] at hl ⊢
    have := mr_noBreak (sqrt := sqrt) H pG (vecAt b) (vecAt x) hcons (i + 1) (fun j hj => hb i hl j (by omega))
    exact this i (by omega)
  obtain ⟨N, st, e⟩ := M.ok (vecAt b) (vecAt x) (k := 1) (q := q) (c := 1) hok
  refine ⟨N, st, e, fun hn => ?_⟩
  obtain ⟨p, q', p1, p2, p3, p4, p5⟩ := M.result (vecAt b) (vecAt x) e (fun j hj => by omega)
  simp only [Nat.zero_add] at p3 p5
  obtain ⟨k, hk, hk0⟩ := mr_finite H (vecAt b) (vecAt x)
  have hk1 : 1 ≤ k := by
    rcases Nat.eq_zero_or_pos k with h | h
    · subst h; exact absurd hk0 hb0
    · exact h
  have hpk : p ≤ k := by
    by_contra hc
    exact p3 k hk1 (by omega) (hz k hk0)
  rcases p5 with ⟨e1, e2, _⟩ | ⟨e1, e2, e3⟩
  · omega
  · exfalso
    obtain rfl : p = k := by omega
    exact e3 hk1 (hz p hk0)

end Core

theorem dotFn_nonneg [IsStrictOrderedRing K] (n : Int) (f : Int → K) : 0 ≤ dotFn n f f :=
  Finset.sum_nonneg (fun _ _ => mul_self_nonneg _)

theorem Minres.tolOf_pos [IsStrictOrderedRing K] (S : Minres K) (hs : IsSqrt S.sqrt) {d : K} (hd : 0 < d)
    (ht : S.relTol ≠ 0 ∨ S.absTol ≠ 0) : 0 < S.tolOf d := by
  unfold tolOf
  rcases ht with h | h
  · apply lt_max_of_lt_left
    have hb : 0 < S.sqrt d := by
      rcases (hs d hd.le).1.lt_or_eq with h1 | h1
      · exact h1
      · have := (hs d hd.le).2
        rw [← h1, mul_zero] at this
        exact absurd this hd.ne
    rw [mul_assoc]
    exact mul_pos hb (mul_self_pos.mpr h)
  · exact lt_max_of_lt_right (mul_self_pos.mpr h)

/-! ## MINRES -/

/-- What a call of MINRES amounts to. -/
theorem Minres.mult_eq (S : Minres K) {n : Nat} {a : Int → Int → K} (hA : S.A.IsMat n a) (hdot : S.dot = Vec.inner)
    (b x : List K) (hb : b.length = n) (hx : x.length = n) (w : MinresState K) (h0 : w.w0.length = n) (h1 : w.w1.length = n)
    (h2 : w.v0.length = n) : S.mult b x w = S.loop (S.tolOf (dotFn n (residFn n a b x) (residFn n a b x))) S.maxIter.toNat 1
      (ofMr n (Mr.seq (dotFn n) (matVec n a) id S.sqrt (vecAt b) (vecAt x) 0) (vecFn n (matVec n a (vecAt x))) 1) := by
  unfold mult
  rw [cassert_true (by rw [hx, hA.rows_eq]), ok_bind, cassert_true (by rw [hb, hA.rows_eq]), ok_bind]
  have e := S.start_eq hA hdot (vecAt b) (vecAt x) w h0 h1 h2
  have eb : b = vecFn n (vecAt b) := by rw [← hb]; exact eq_vecFn_vecAt b
  have ex : x = vecFn n (vecAt x) := by rw [← hx]; exact eq_vecFn_vecAt x
  rw [← eb, ← ex] at e
  rw [e, ok_bind]
  rfl

theorem krylovVec_eq (n : Int) (a : Int → Int → K) (r : Int → K) : krylovVec n a r = Mr.kry (matVec n a) id r := by
  funext j
  induction j with
  | zero => rfl
  | succ j ih => simp only [krylovVec, ih, Mr.kry, id]

/-- **C82**: for a symmetric matrix, `MINRES` returns a vector whose residual is the smallest among `x + span(r, a r, .., a^(k-1) r)`,
where `k` is the number of passes; the number it compares with the tolerance is the norm of that residual. -/
theorem C82_minimal [IsStrictOrderedRing K] (S : Minres K) (n : Nat) (a : Int → Int → K) (hA : S.A.IsMat n a) (sa : SymmOn n a)
    (hdot : S.dot = Vec.inner) (hs : IsSqrt S.sqrt) (b x : List K) (hb : b.length = n) (hx : x.length = n) (w : MinresState K)
    (h0 : w.w0.length = n) (h1 : w.w1.length = n) (h2 : w.v0.length = n) (N : Int) (st : MinresState K)
    (h : S.mult b x w = .ok (N, st)) :
    let r0 := residFn n a b x
    let r := residFn n a b st.x
    let tol := S.tolOf (dotFn n r0 r0)
    ∃ k : Nat, st.applied = k + 1 ∧ st.x.length = n ∧ st.eta * st.eta = dotFn n r r ∧
      (∃ c : Nat → K, ∀ i : Int, 0 ≤ i → i < n → vecAt st.x i = comb x (krylovVec n a r0) k c i) ∧
      (∀ c : Nat → K, dotFn n r r ≤ dotFn n (vecAt b - matVec n a (comb x (krylovVec n a r0) k c))
        (vecAt b - matVec n a (comb x (krylovVec n a r0) k c))) ∧
      ((N = k ∧ 1 ≤ k ∧ N ≤ S.maxIter ∧ |st.eta| < tol) ∨
        (N = S.maxIter.toNat + 1 ∧ k = S.maxIter.toNat ∧ (1 ≤ k → tol ≤ |st.eta|))) := by
  intro r0 r tol
  rw [S.mult_eq hA hdot b x hb hx w h0 h1 h2] at h
  obtain ⟨p, q', p1, p2, p3, p4, p5⟩ := (S.mrLoop tol n a hA hdot).result (vecAt b) (vecAt x) h (fun j hj => by omega)
  simp only [Nat.zero_add] at p2 p4 p5
  have H : Mr.Hyp (dotFn n) (matVec n a) id S.sqrt :=
    mr_hyp sa ⟨fun _ _ => rfl, fun _ _ => rfl⟩ (fun _ _ => rfl) (fun f hf => dotFn_self_pos hf) hs
  have hst : st.x = vecFn n (Mr.seq (dotFn n) (matVec n a) id S.sqrt (vecAt b) (vecAt x) p).x ∧
      st.eta = (Mr.seq (dotFn n) (matVec n a) id S.sqrt (vecAt b) (vecAt x) p).eta ∧ st.applied = 1 + p := by
    rcases p4 with rfl | rfl <;> exact ⟨rfl, rfl, rfl⟩
  obtain ⟨ex, ee, ea⟩ := hst
  obtain ⟨c1, c2, c3⟩ := mr_core H b x p p2
  simp only [id] at c1 c3
  rw [← ex, ← ee] at c1
  rw [← ex] at c2 c3
  rw [← krylovVec_eq] at c2 c3
  refine ⟨p, by omega, by rw [ex]; simp, c1, c2, c3, ?_⟩
  rw [← ee] at p5
  rcases p5 with ⟨e1, e2, e3⟩ | ⟨e1, e2, e3⟩
  · exact Or.inl ⟨by omega, e2, by omega, e3⟩
  · exact Or.inr ⟨by omega, e2, fun h => not_lt.mp (e3 h)⟩

/-- **C82**: if the system has a solution, the start is none, and a tolerance is not zero, `MINRES` finishes, and within `n` passes the
norm of the residual is below the tolerance. -/
theorem C82_terminates [IsStrictOrderedRing K] (S : Minres K) (n : Nat) (a : Int → Int → K) (hA : S.A.IsMat n a) (sa : SymmOn n a)
    (hdot : S.dot = Vec.inner) (hs : IsSqrt S.sqrt) (b x : List K) (hb : b.length = n) (hx : x.length = n) (w : MinresState K)
    (h0 : w.w0.length = n) (h1 : w.w1.length = n) (h2 : w.v0.length = n) (hcons : Consistent n a b)
    (hr : ¬ ZeroOn n (residFn n a b x)) (ht : S.relTol ≠ 0 ∨ S.absTol ≠ 0) :
    ∃ N st, S.mult b x w = .ok (N, st) ∧ ((n : Int) ≤ S.maxIter → N ≤ n ∧
      dotFn n (residFn n a b st.x) (residFn n a b st.x)
        < S.tolOf (dotFn n (residFn n a b x) (residFn n a b x)) * S.tolOf (dotFn n (residFn n a b x) (residFn n a b x))) := by
  have H : Mr.Hyp (dotFn n) (matVec n a) id S.sqrt :=
    mr_hyp sa ⟨fun _ _ => rfl, fun _ _ => rfl⟩ (fun _ _ => rfl) (fun f hf => dotFn_self_pos hf) hs
  have htol := S.tolOf_pos hs (dotFn_self_pos hr) ht
  obtain ⟨N, st, e, hN⟩ := mr_term (S.mrLoop _ n a hA hdot) H (fun f hf => dotFn_self_pos hf) b x hcons hr htol S.maxIter.toNat
    (vecFn n (matVec n a (vecAt x)))
  have e' : S.mult b x w = .ok (N, st) := by
    rw [S.mult_eq hA hdot b x hb hx w h0 h1 h2]
    exact e
  refine ⟨N, st, e', fun hn => ?_⟩
  have hN' := hN (by omega)
  refine ⟨hN', ?_⟩
  obtain ⟨k, _, _, c1, _, _, c2⟩ := C82_minimal S n a hA sa hdot hs b x hb hx w h0 h1 h2 N st e'
  rcases c2 with ⟨_, _, _, c3⟩ | ⟨c3, _, _⟩
  · rw [← c1, ← abs_mul_abs_self st.eta]
    exact mul_self_lt_mul_self (abs_nonneg _) c3
  · omega

/-! ## PMINRES -/

/-- What a call of PMINRES amounts to. -/
theorem Pminres.mult_eq (S : Minres K) (M : Op K) {n : Nat} {a m : Int → Int → K} (hA : S.A.IsMat n a) (hM : M.IsMat n m)
    (hdot : S.dot = Vec.inner) (b x : List K) (hb : b.length = n) (hx : x.length = n) (w : PminresState K) (h0 : w.w0.length = n)
    (h1 : w.w1.length = n) (h2 : w.v0.length = n) : Pminres.mult S M b x w
      = Pminres.loop S M (S.tolOf (dotFn n (residFn n a b x) (matVec n m (residFn n a b x)))) S.maxIter.toNat 1
        (ofMr n m (Mr.seq (dotFn n) (matVec n a) (matVec n m) S.sqrt (vecAt b) (vecAt x) 0) (vecFn n (matVec n a (vecAt x))) 1) := by
  unfold mult
  rw [cassert_true (by rw [hb, hA.rows_eq]), ok_bind, cassert_true (by rw [hx, hA.cols_eq]), ok_bind]
  have e := Pminres.start_eq S M hA hM hdot (vecAt b) (vecAt x) w h0 h1 h2
  have eb : b = vecFn n (vecAt b) := by rw [← hb]; exact eq_vecFn_vecAt b
  have ex : x = vecFn n (vecAt x) := by rw [← hx]; exact eq_vecFn_vecAt x
  rw [← eb, ← ex] at e
  rw [e, ok_bind]
  rfl

theorem krylovVecP_eq (n : Int) (a m : Int → Int → K) (r : Int → K) :
    krylovVecP n a m r = Mr.kry (matVec n a) (matVec n m) r := by
  funext j
  induction j with
  | zero => rfl
  | succ j ih => simp only [krylovVecP, ih, Mr.kry]

/-- **C83**: for a symmetric matrix `a` and a symmetric positive definite preconditioner `m`, `PMINRES` returns a vector whose residual
`r` has the smallest `r · m r` among `x + span(m r, m a m r, .., (m a)^(k-1) m r)`, where `k` is the number of passes; the number it
compares with the tolerance is the root of that. -/
theorem C83_minimal [IsStrictOrderedRing K] (S : Minres K) (M : Op K) (n : Nat) (a m : Int → Int → K) (hA : S.A.IsMat n a)
    (hM : M.IsMat n m) (sa : SymmOn n a) (sm : SymmOn n m) (pm : PosDefOn n m)
    (hdot : S.dot = Vec.inner) (hs : IsSqrt S.sqrt) (b x : List K) (hb : b.length = n) (hx : x.length = n) (w : PminresState K)
    (h0 : w.w0.length = n) (h1 : w.w1.length = n) (h2 : w.v0.length = n) (N : Int) (st : PminresState K)
    (h : Pminres.mult S M b x w = .ok (N, st)) :
    let r0 := residFn n a b x
    let r := residFn n a b st.x
    let tol := S.tolOf (dotFn n r0 (matVec n m r0))
    ∃ k : Nat, st.applied = k + 1 ∧ st.x.length = n ∧ st.eta * st.eta = dotFn n r (matVec n m r) ∧
      (∃ c : Nat → K, ∀ i : Int, 0 ≤ i → i < n → vecAt st.x i = comb x (krylovVecP n a m r0) k c i) ∧
      (∀ c : Nat → K, dotFn n r (matVec n m r) ≤ dotFn n (vecAt b - matVec n a (comb x (krylovVecP n a m r0) k c))
        (matVec n m (vecAt b - matVec n a (comb x (krylovVecP n a m r0) k c)))) ∧
      ((N = k ∧ 1 ≤ k ∧ N ≤ S.maxIter ∧ |st.eta| < tol) ∨
        (N = S.maxIter.toNat + 1 ∧ k = S.maxIter.toNat ∧ (1 ≤ k → tol ≤ |st.eta|))) := by
  intro r0 r tol
  rw [Pminres.mult_eq S M hA hM hdot b x hb hx w h0 h1 h2] at h
  obtain ⟨p, q', p1, p2, p3, p4, p5⟩ := (Pminres.mrLoop S M tol n a m hA hM hdot).result (vecAt b) (vecAt x) h
    (fun j hj => by omega)
  simp only [Nat.zero_add] at p2 p4 p5
  have H : Mr.Hyp (dotFn n) (matVec n a) (matVec n m) S.sqrt := mr_hyp sa (matVec_isLin n m) (dotFn_selfAdj sm) pm hs
  have hst : st.x = vecFn n (Mr.seq (dotFn n) (matVec n a) (matVec n m) S.sqrt (vecAt b) (vecAt x) p).x ∧
      st.eta = (Mr.seq (dotFn n) (matVec n a) (matVec n m) S.sqrt (vecAt b) (vecAt x) p).eta ∧ st.applied = 1 + p := by
    rcases p4 with rfl | rfl <;> exact ⟨rfl, rfl, rfl⟩
  obtain ⟨ex, ee, ea⟩ := hst
  obtain ⟨c1, c2, c3⟩ := mr_core H b x p p2
  rw [← ex, ← ee] at c1
  rw [← ex] at c2 c3
  rw [← krylovVecP_eq] at c2 c3
  refine ⟨p, by omega, by rw [ex]; simp, c1, c2, c3, ?_⟩
  rw [← ee] at p5
  rcases p5 with ⟨e1, e2, e3⟩ | ⟨e1, e2, e3⟩
  · exact Or.inl ⟨by omega, e2, by omega, e3⟩
  · exact Or.inr ⟨by omega, e2, fun h => not_lt.mp (e3 h)⟩

/-- **C83**: if the system has a solution, the start is none, and a tolerance is not zero, `PMINRES` finishes, and within `n` passes
`r · m r` is below the square of the tolerance. -/
theorem C83_terminates [IsStrictOrderedRing K] (S : Minres K) (M : Op K) (n : Nat) (a m : Int → Int → K) (hA : S.A.IsMat n a)
    (hM : M.IsMat n m) (sa : SymmOn n a) (sm : SymmOn n m) (pm : PosDefOn n m)
    (hdot : S.dot = Vec.inner) (hs : IsSqrt S.sqrt) (b x : List K) (hb : b.length = n) (hx : x.length = n) (w : PminresState K)
    (h0 : w.w0.length = n) (h1 : w.w1.length = n) (h2 : w.v0.length = n) (hcons : Consistent n a b)
    (hr : ¬ ZeroOn n (residFn n a b x)) (ht : S.relTol ≠ 0 ∨ S.absTol ≠ 0) :
    ∃ N st, Pminres.mult S M b x w = .ok (N, st) ∧ ((n : Int) ≤ S.maxIter → N ≤ n ∧
      dotFn n (residFn n a b st.x) (matVec n m (residFn n a b st.x))
        < S.tolOf (dotFn n (residFn n a b x) (matVec n m (residFn n a b x)))
          * S.tolOf (dotFn n (residFn n a b x) (matVec n m (residFn n a b x)))) := by
  have H : Mr.Hyp (dotFn n) (matVec n a) (matVec n m) S.sqrt := mr_hyp sa (matVec_isLin n m) (dotFn_selfAdj sm) pm hs
  have htol := S.tolOf_pos hs (pm _ hr) ht
  obtain ⟨N, st, e, hN⟩ := mr_term (Pminres.mrLoop S M _ n a m hA hM hdot) H pm b x hcons hr htol S.maxIter.toNat
    (vecFn n (matVec n a (vecAt x)))
  have e' : Pminres.mult S M b x w = .ok (N, st) := by
    rw [Pminres.mult_eq S M hA hM hdot b x hb hx w h0 h1 h2]
    exact e
  refine ⟨N, st, e', fun hn => ?_⟩
  have hN' := hN (by omega)
  refine ⟨hN', ?_⟩
  obtain ⟨k, _, _, c1, _, _, c2⟩ := C83_minimal S M n a m hA hM sa sm pm hdot hs b x hb hx w h0 h1 h2 N st e'
  rcases c2 with ⟨_, _, _, c3⟩ | ⟨c3, _, _⟩
  · rw [← c1, ← abs_mul_abs_self st.eta]
    exact mul_self_lt_mul_self (abs_nonneg _) c3
  · omega

/-! ## Concrete cases -/

/-- The Laplacian of one edge, `[[1, -1], [-1, 1]]`: symmetric and singular. -/
def exLap : Csr ℝ := ⟨2, 2, [0, 2, 4], [0, 1, 0, 1], [1, -1, -1, 1]⟩

/-- A preconditioner, `diag(2, 3)`. -/
def exDiag : Csr ℝ := ⟨2, 2, [0, 1, 2], [0, 1], [2, 3]⟩

theorem exLap_coef : exLap.coef 0 0 = 1 ∧ exLap.coef 0 1 = -1 ∧ exLap.coef 1 0 = -1 ∧ exLap.coef 1 1 = 1 := by
  have r0 : exLap.row 0 = [(0, 1), (1, -1)] := rfl
  have r1 : exLap.row 1 = [(0, -1), (1, 1)] := rfl
  unfold Csr.coef
  rw [r0, r1]
  simp

theorem exDiag_coef : exDiag.coef 0 0 = 2 ∧ exDiag.coef 0 1 = 0 ∧ exDiag.coef 1 0 = 0 ∧ exDiag.coef 1 1 = 3 := by
  have r0 : exDiag.row 0 = [(0, 2)] := rfl
  have r1 : exDiag.row 1 = [(1, 3)] := rfl
  unfold Csr.coef
  rw [r0, r1]
  simp

theorem isSqrt_real : IsSqrt Real.sqrt := fun t ht => ⟨Real.sqrt_nonneg t, Real.mul_self_sqrt ht⟩

theorem exLap_symm : SymmOn ((2 : Nat) : Int) exLap.coef := by
  obtain ⟨c1, c2, c3, c4⟩ := exLap_coef
  intro i j h0 h1 h2 h3
  obtain rfl | rfl : i = 0 ∨ i = 1 := by omega
  all_goals obtain rfl | rfl : j = 0 ∨ j = 1 := by omega
  all_goals simp only [c1, c2, c3, c4]

theorem exDiag_symm : SymmOn ((2 : Nat) : Int) exDiag.coef := by
  obtain ⟨c1, c2, c3, c4⟩ := exDiag_coef
  intro i j h0 h1 h2 h3
  obtain rfl | rfl : i = 0 ∨ i = 1 := by omega
  all_goals obtain rfl | rfl : j = 0 ∨ j = 1 := by omega
  all_goals simp only [c1, c2, c3, c4]

theorem exDiag_pos : PosDefOn ((2 : Nat) : Int) exDiag.coef := by
  obtain ⟨c1, c2, c3, c4⟩ := exDiag_coef
  intro f hf
  have e : Finset.Ico (0 : Int) ((2 : Nat) : Int) = {0, 1} := by decide
  simp only [dotFn, matVec, e, Finset.sum_pair (show (0 : Int) ≠ 1 by decide), c1, c2, c3, c4]
  by_contra hc
  apply hf
  have h0 : f 0 = 0 := by nlinarith [sq_nonneg (f 0), sq_nonneg (f 1)]
  have h1 : f 1 = 0 := by nlinarith [sq_nonneg (f 0), sq_nonneg (f 1)]
  intro i i0 i1
  obtain rfl | rfl : i = 0 ∨ i = 1 := by omega
  · exact h0
  · exact h1

theorem exLap_consistent : Consistent ((2 : Nat) : Int) exLap.coef [1, -1] := by
  obtain ⟨c1, c2, c3, c4⟩ := exLap_coef
  have e : Finset.Ico (0 : Int) ((2 : Nat) : Int) = {0, 1} := by decide
  refine ⟨fun i => if i = 0 then 1 else 0, fun i h0 h1 => ?_⟩
  obtain rfl | rfl : i = 0 ∨ i = 1 := by omega
  all_goals simp [matVec, c1, c3, vecAt]

theorem exLap_resid : ¬ ZeroOn ((2 : Nat) : Int) (residFn ((2 : Nat) : Int) exLap.coef [1, -1] [0, 0]) := by
  have e : Finset.Ico (0 : Int) ((2 : Nat) : Int) = {0, 1} := by decide
  intro h
  have := h 0 (by omega) (by omega)
  simp only [residFn, matVec, e, Finset.sum_pair (show (0 : Int) ≠ 1 by decide)] at this
  simp [vecAt] at this

/-- The hypotheses of `C82_terminates` hold for a singular system. -/
example : ∃ N st, (⟨exLap.toOp, 5, 0, 1 / 1000, Real.sqrt, Vec.inner⟩ : Minres ℝ).mult [1, -1] [0, 0]
    ⟨[], [0, 0], [0, 0], [0, 0], [0, 0], [0, 0], 0, 0, 0, 0, 0, 0, 0⟩ = .ok (N, st) ∧ N ≤ 2 := by
  obtain ⟨N, st, e, h⟩ := C82_terminates (⟨exLap.toOp, 5, 0, 1 / 1000, Real.sqrt, Vec.inner⟩ : Minres ℝ) 2 exLap.coef
    (C42_sparse_op exLap (by decide +kernel) rfl) exLap_symm rfl isSqrt_real [1, -1] [0, 0] rfl rfl
    ⟨[], [0, 0], [0, 0], [0, 0], [0, 0], [0, 0], 0, 0, 0, 0, 0, 0, 0⟩ rfl rfl rfl exLap_consistent exLap_resid
    (Or.inr (by norm_num))
  exact ⟨N, st, e, (h (by decide)).1⟩

/-- The hypotheses of `C83_terminates` hold for a singular system. -/
example : ∃ N st, Pminres.mult (⟨exLap.toOp, 5, 0, 1 / 1000, Real.sqrt, Vec.inner⟩ : Minres ℝ) exDiag.toOp [1, -1] [0, 0]
    ⟨[], [0, 0], [0, 0], [0, 0], [0, 0], [], [0, 0], 0, 0, 0, 0, 0, 0, 0⟩ = .ok (N, st) ∧ N ≤ 2 := by
  obtain ⟨N, st, e, h⟩ := C83_terminates (⟨exLap.toOp, 5, 0, 1 / 1000, Real.sqrt, Vec.inner⟩ : Minres ℝ) exDiag.toOp 2 exLap.coef
    exDiag.coef (C42_sparse_op exLap (by decide +kernel) rfl) (C42_sparse_op exDiag (by decide +kernel) rfl) exLap_symm exDiag_symm
    exDiag_pos rfl isSqrt_real [1, -1] [0, 0] rfl rfl
    ⟨[], [0, 0], [0, 0], [0, 0], [0, 0], [], [0, 0], 0, 0, 0, 0, 0, 0, 0⟩ rfl rfl rfl exLap_consistent exLap_resid
    (Or.inr (by norm_num))
  exact ⟨N, st, e, (h (by decide)).1⟩

/-- A system without solution can make `rho1` vanish: `a = 0`, `b = [1]`. -/
example : (⟨(⟨1, 1, [0, 0], [], []⟩ : Csr Rat).toOp, 5, 0, 1 / 1000, testSqrt, Vec.inner⟩ : Minres Rat).mult [1] [0]
    ⟨[], [0], [0], [0], [0], [0], 0, 0, 0, 0, 0, 0, 0⟩ = .error .divZero := by decide +kernel

end Linalg
