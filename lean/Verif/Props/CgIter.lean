import Verif.Props.CgRate
import Verif.Proof.PowerIter
import Verif.Props.Examples

/-!
# How many iterations CG reports (C124)
-/

namespace Linalg
open Cpp Polynomial

section
variable {K : Type} [Field K] [LinearOrder K] [IsStrictOrderedRing K]

/-- No pass before the last one met the tolerance. -/
theorem Pcg.Ok.loop_first {S : Pcg K} {n : Nat} {a m : Int → Int → K} (h : S.Ok n a m) (tol : K) (fuel : Nat) (k : Int)
    (s : Cg.State (Int → K)) (Ap : List K) (c : Int) (N : Int) (st : PcgState K)
    (he : S.loop tol fuel k (ofCg n s Ap c) = .ok (N, st)) :
    ∃ j : Nat, 1 ≤ j ∧ j ≤ fuel + 1 ∧
      (∀ i : Nat, 1 ≤ i → i < j → ¬ dotFn n (Cg.seqFrom (dotFn n) (matVec n a) (S.prec n m) s i).z
          (Cg.seqFrom (dotFn n) (matVec n a) (S.prec n m) s i).r < tol) ∧
      (N = k + j - 1 ∨ (N = k + j ∧ j = fuel + 1 ∧ ¬ dotFn n (Cg.seqFrom (dotFn n) (matVec n a) (S.prec n m) s j).z
          (Cg.seqFrom (dotFn n) (matVec n a) (S.prec n m) s j).r < tol)) := by
  induction fuel generalizing k s Ap c with
  | zero =>
    unfold loop at he
    rw [h.step_eq] at he
    simp only at he
    split at he
    · simp at he
    · split at he
      · split at he
        · next h3 =>
          simp only [ok_bind, if_true, Except.ok.injEq, Prod.mk.injEq] at he
          obtain ⟨rfl, rfl⟩ := he
          exact ⟨1, le_refl _, le_refl _, fun i h1 h2 => by omega, Or.inl (by simp)⟩
        · next h3 =>
          split at he
          · simp at he
          · simp only [ok_bind, Bool.false_eq_true, if_false, Except.ok.injEq, Prod.mk.injEq] at he
            obtain ⟨rfl, rfl⟩ := he
            exact ⟨1, le_refl _, le_refl _, fun i h1 h2 => by omega, Or.inr ⟨rfl, rfl, h3⟩⟩
      · simp at he
  | succ fuel ih =>
    unfold loop at he
    rw [h.step_eq] at he
    simp only at he
    split at he
    · simp at he
    · split at he
      · split at he
        · next h3 =>
          simp only [ok_bind, if_true, Except.ok.injEq, Prod.mk.injEq] at he
          obtain ⟨rfl, rfl⟩ := he
          exact ⟨1, le_refl _, by omega, fun i h1 h2 => by omega, Or.inl (by simp)⟩
        · next h3 =>
          split at he
          · simp at he
          · simp only [ok_bind, Bool.false_eq_true, if_false] at he
            obtain ⟨j, j1, j2, j3, j4⟩ := ih _ _ _ _ he
            simp only [Cg.seqFrom_step] at j3 j4
            refine ⟨j + 1, by omega, by omega, fun i h1 h2 => ?_, ?_⟩
            · obtain rfl | ⟨i', rfl, hi'⟩ : i = 1 ∨ ∃ i', i = i' + 1 ∧ 1 ≤ i' := by
                rcases i with _ | _ | i
                · omega
                · exact Or.inl rfl
                · exact Or.inr ⟨i + 1, rfl, by omega⟩
              · exact h3
              · exact j3 i' hi' (by omega)
            · rcases j4 with e | ⟨e, t, u⟩
              · exact Or.inl (by rw [e]; push_cast; ring)
              · exact Or.inr ⟨by rw [e]; push_cast; ring, by omega, u⟩
      · simp at he

/-- If one of the first `k` states meets the tolerance, at most `k` iterations are reported. -/
theorem Pcg.Ok.stops {S : Pcg K} {n : Nat} {a m : Int → Int → K} (h : S.Ok n a m) (b x : List K)
    (hb : b.length = n) (hx : x.length = n) (w : PcgState K) (N : Int) (st : PcgState K)
    (he : S.mult b x w = .ok (N, st)) (k i : Nat) (hk1 : 1 ≤ k) (hi : i ≤ k) (hk : (k : Int) < S.maxIter ∨ k = 1)
    (ht : dotFn n (Cg.seq (dotFn n) (matVec n a) (S.prec n m) (vecAt b) (vecAt x) i).z
      (Cg.seq (dotFn n) (matVec n a) (S.prec n m) (vecAt b) (vecAt x) i).r < S.tolFn n a m b x) : N ≤ k := by
  rw [h.mult_eq b x hb hx w] at he
  simp only at he
  split at he
  · simp only [Except.ok.injEq, Prod.mk.injEq] at he
    omega
  · next h0 =>
    obtain ⟨j, j1, j2, j3, j4⟩ := h.loop_first _ _ _ _ _ _ _ _ he
    simp only [← Cg.seq_eq] at j3 j4
    have hi1 : 1 ≤ i := by
      rcases i with _ | i
      · exact absurd ht h0
      · omega
    rcases j4 with e | ⟨e, t, u⟩
    · by_contra hN
      exact j3 i hi1 (by omega) ht
    · by_cases hij : i < j
      · exact absurd ht (j3 i hi1 hij)
      · have : i = j := by omega
        subst this
        exact absurd ht u

end

/-- A positive definite system has a solution. -/
theorem posDef_solvable {n : Nat} {a : Int → Int → ℝ} (pa : PosDefOn n a) (g : Int → ℝ) :
    ∃ f : Int → ℝ, ∀ i : Int, 0 ≤ i → i < n → matVec n a f i = g i := by
  have hL := matVec_isLin (K := ℝ) (n : Int) a
  let T : (Fin n → ℝ) →ₗ[ℝ] (Fin n → ℝ) :=
    { toFun := fun v => resFn n (matVec n a (extFn n v))
      map_add' := fun u v => by rw [extFn_add, hL.add]; rfl
      map_smul' := fun r v => by rw [extFn_smul, hL.smul]; rfl }
  have hT : ∀ v i, 0 ≤ i → i < (n : Int) → extFn n (T v) i = matVec n a (extFn n v) i := fun v i i0 i1 => extFn_resFn n (matVec n a (extFn n v)) i i0 i1
  have hinj : Function.Injective T := by
    rw [← LinearMap.ker_eq_bot, LinearMap.ker_eq_bot']
    intro v hv
    by_contra hne
    have := pa (extFn n v) (fun hz => hne (extFn_zeroOn n v hz))
    rw [dotFn_symm, dotFn_zero_left (fun i i0 i1 => by
      rw [← hT v i i0 i1, hv, ← zero_smul ℝ (0 : Fin n → ℝ), extFn_smul, zero_smul]; rfl)] at this
    exact lt_irrefl _ this
  obtain ⟨v, hv⟩ := LinearMap.injective_iff_surjective.mp hinj (resFn n g)
  exact ⟨extFn n v, fun i i0 i1 => by rw [← hT v i i0 i1, hv, extFn_resFn n g i i0 i1]⟩

/-- **C124.**  How many iterations are needed: if the form of the preconditioned matrix is between `lo` and `hi` times the form of the matrix, a limit above `k` is
set and `2 √(hi / lo) ((√hi - √lo) / (√hi + √lo)) ^ k` is below the relative tolerance, then CG and PCG stop because the tolerance is met, whatever the right-hand side and
the start, and report at most `k` iterations. -/
theorem C124_iterations (S : Pcg ℝ) (n : Nat) (a m : Int → Int → ℝ) (h : S.Ok n a m) (hd : S.Spd n a m) (b x : List ℝ)
    (hb : b.length = n) (hx : x.length = n) (w : PcgState ℝ) (lo hi : ℝ) (h0 : 0 < lo) (hlh : lo ≤ hi)
    (hev : ∀ v : Int → ℝ, lo * energy n a v ≤ dotFn n (matVec n a v) (S.prec n m (matVec n a v)) ∧
      dotFn n (matVec n a v) (S.prec n m (matVec n a v)) ≤ hi * energy n a v)
    (k : Nat) (hk1 : 1 ≤ k) (hk : (k : Int) < S.maxIter)
    (htol : 2 * √(hi / lo) * ((√hi - √lo) / (√hi + √lo)) ^ k < S.relTol) (habs : S.absTol ≠ 0 ∨ ¬ ZeroOn n (residFn n a b x)) :
    ∃ N st, S.mult b x w = .ok (N, st) ∧ N ≤ k ∧
      dotFn n (residFn n a b st.x) (S.prec n m (residFn n a b st.x))
        < max (S.relTol ^ 2 * dotFn n (residFn n a b x) (S.prec n m (residFn n a b x))) (S.absTol ^ 2) := by
  have hq : 0 ≤ (√hi - √lo) / (√hi + √lo) := by
    have := Real.sqrt_le_sqrt hlh
    have := Real.sqrt_nonneg lo
    exact div_nonneg (by linarith) (by linarith)
  have hc : 0 ≤ 2 * √(hi / lo) * ((√hi - √lo) / (√hi + √lo)) ^ k := by positivity
  have hrel : 0 < S.relTol := lt_of_le_of_lt hc htol
  have hR : ∀ v : Int → ℝ, 0 ≤ dotFn n (S.prec n m v) v := by
    intro v
    rw [dotFn_symm]
    by_cases hz : ZeroOn n v
    · rw [dotFn_zero_left hz]
    · exact (hd.prec_pos v hz).le
  have ht : 0 < max (dotFn n (S.prec n m (residFn n a b x)) (residFn n a b x) * S.relTol * S.relTol) (S.absTol * S.absTol) := by
    rcases habs with ha | hz
    · exact lt_max_of_lt_right (mul_self_pos.mpr ha)
    · refine lt_max_of_lt_left ?_
      have := hd.prec_pos _ hz
      rw [dotFn_symm] at this
      positivity
  obtain ⟨N, st, e, -⟩ := C44_returns S n a m h hd b x hb hx w ht
  suffices hmet : ∃ i, i ≤ k ∧ dotFn n (Cg.seq (dotFn n) (matVec n a) (S.prec n m) (vecAt b) (vecAt x) i).z
      (Cg.seq (dotFn n) (matVec n a) (S.prec n m) (vecAt b) (vecAt x) i).r < S.tolFn n a m b x by
    obtain ⟨i, i1, i2⟩ := hmet
    have hN := h.stops b x hb hx w N st e k i hk1 i1 (Or.inl hk) i2
    refine ⟨N, st, e, hN, ?_⟩
    have := C42_early_stop S n a m h b x hb hx w N st e (by omega)
    rw [dotFn_symm, dotFn_symm (n : Int) (residFn n a b x), pow_two, pow_two, mul_comm]
    rw [← mul_assoc]
    exact this
  -- the same solver with the limit `k + 1`
  have h' : Pcg.Ok { S with maxIter := (k : Int) + 1 } n a m := ⟨h.A_mat, h.M_mat, h.dot_eq⟩
  have hd' : Pcg.Spd { S with maxIter := (k : Int) + 1 } n a m := ⟨hd.a_symm, hd.a_pos, hd.m_symm, hd.m_pos⟩
  obtain ⟨N', st', e', -⟩ := C44_returns { S with maxIter := (k : Int) + 1 } n a m h' hd' b x hb hx w ht
  obtain ⟨j, hat, hap, hj, hcase⟩ := h'.mult_result b x hb hx w N' st' e'
  rcases hcase with ⟨-, hmet⟩ | ⟨en, ej⟩
  · exact ⟨j, by simp only at hj; omega, hmet⟩
  · obtain rfl : j = k := by simp only at en; omega
    refine ⟨j, le_rfl, ?_⟩
    obtain ⟨f, hf⟩ := posDef_solvable hd.a_pos (vecAt b)
    have hL := matVec_isLin (K := ℝ) (n : Int) a
    have hr : ∀ y : List ℝ, ∀ i, 0 ≤ i → i < (n : Int) → residFn n a b y i = matVec n a (f - vecAt y) i := by
      intro y i i0 i1
      rw [hL.sub]
      simp only [Pi.sub_apply, hf i i0 i1]
      rfl
    have hform : ∀ y : List ℝ, dotFn n (S.prec n m (residFn n a b y)) (residFn n a b y)
        = dotFn n (matVec n a (f - vecAt y)) (S.prec n m (matVec n a (f - vecAt y))) := by
      intro y
      rw [dotFn_symm]
      exact dotFn_congr _ (hr y) (prec_congr (S := S) (m := m) (hr y))
    have hrate := C124_rate { S with maxIter := (j : Int) + 1 } n a m h' hd' b x hb hx w N' st' e' f hf j (by omega) lo hi h0 hlh (by
      intro t v hv ev _
      have hp := hd.a_pos v hv
      have hvv := hev v
      have e1 : dotFn n (matVec n a v) (S.prec n m (matVec n a v)) = t * energy n a v := by
        have : dotFn n (matVec n a v) (S.prec n m (matVec n a v)) = dotFn n (matVec n a v) (t • v) :=
          dotFn_congr _ (fun _ _ _ => rfl) (fun i i0 i1 => ev i i0 i1)
        rw [this, dotFn_symm, (dotFn_bilin (n : Int)).smul_left]
        rfl
      rw [e1] at hvv
      exact ⟨le_of_mul_le_mul_right hvv.1 hp, le_of_mul_le_mul_right hvv.2 hp⟩)
    have hE0 := (energy_pos hd.a_pos (f - vecAt x)).1
    have hE1 := (energy_pos hd.a_pos (f - vecAt st'.x)).1
    set q := ((√hi - √lo) / (√hi + √lo)) ^ j with hqd
    have hq0 : 0 ≤ q := pow_nonneg hq j
    have sq1 : energy n a (f - vecAt st'.x) ≤ (2 * q) ^ 2 * energy n a (f - vecAt x) := by
      have := mul_self_le_mul_self (Real.sqrt_nonneg _) hrate
      rw [Real.mul_self_sqrt hE1] at this
      have e2 := Real.mul_self_sqrt hE0
      nlinarith
    have hres : dotFn n (S.prec n m (residFn n a b st'.x)) (residFn n a b st'.x)
        ≤ (2 * √(hi / lo) * q) ^ 2 * dotFn n (S.prec n m (residFn n a b x)) (residFn n a b x) := by
      have hhi : 0 < hi := lt_of_lt_of_le h0 hlh
      have u := (hev (f - vecAt st'.x)).2
      have l := (hev (f - vecAt x)).1
      rw [hform, hform]
      have hs2 : (2 * √(hi / lo) * q) ^ 2 = (2 * q) ^ 2 * (hi / lo) := by
        rw [mul_pow, mul_pow, mul_pow, Real.sq_sqrt (by positivity)]
        ring
      rw [hs2]
      calc _ ≤ hi * energy n a (f - vecAt st'.x) := u
        _ ≤ hi * ((2 * q) ^ 2 * energy n a (f - vecAt x)) := mul_le_mul_of_nonneg_left sq1 hhi.le
        _ = (2 * q) ^ 2 * (hi / lo) * (lo * energy n a (f - vecAt x)) := by field_simp
        _ ≤ _ := mul_le_mul_of_nonneg_left l (by positivity)
    have hlt : dotFn n (S.prec n m (residFn n a b st'.x)) (residFn n a b st'.x) < S.tolFn n a m b x := by
      unfold Pcg.tolFn
      rcases (hR (residFn n a b x)).eq_or_lt with hz | hz
      · rw [← hz, mul_zero] at hres
        exact lt_of_le_of_lt hres ht
      · refine lt_max_of_lt_left (lt_of_le_of_lt hres ?_)
        have : (2 * √(hi / lo) * q) ^ 2 < S.relTol ^ 2 := pow_lt_pow_left₀ htol hc (by norm_num)
        nlinarith
    have hr' := resid_of_at hat
    rw [← dotFn_congr (n : Int) (prec_congr (S := S) (m := m) hr') hr'] at hlt
    rw [Cg.precond]
    exact hlt

/-- **C124.**  The same for CG, from bounds of the form of the matrix. -/
theorem C124_iterations_cg (S : Pcg ℝ) (n : Nat) (a m : Int → Int → ℝ) (h : S.Ok n a m) (hs : SymmOn n a) (hM : S.M = none) (b x : List ℝ)
    (hb : b.length = n) (hx : x.length = n) (w : PcgState ℝ) (lo hi : ℝ) (h0 : 0 < lo) (hlh : lo ≤ hi)
    (hev : ∀ v : Int → ℝ, lo * dotFn n v v ≤ dotFn n v (matVec n a v) ∧ dotFn n v (matVec n a v) ≤ hi * dotFn n v v)
    (k : Nat) (hk1 : 1 ≤ k) (hk : (k : Int) < S.maxIter)
    (htol : 2 * √(hi / lo) * ((√hi - √lo) / (√hi + √lo)) ^ k < S.relTol) (habs : S.absTol ≠ 0 ∨ ¬ ZeroOn n (residFn n a b x)) :
    ∃ N st, S.mult b x w = .ok (N, st) ∧ N ≤ k ∧
      dotFn n (residFn n a b st.x) (residFn n a b st.x)
        < max (S.relTol ^ 2 * dotFn n (residFn n a b x) (residFn n a b x)) (S.absTol ^ 2) := by
  have hG : S.prec n m = id := by unfold Pcg.prec; rw [hM]; rfl
  have pa : PosDefOn n a := fun v hv => lt_of_lt_of_le (mul_pos h0 (dotFn_self_pos hv)) (hev v).1
  have hd : S.Spd n a m := ⟨hs, pa, by rw [hM]; simp, by rw [hM]; simp⟩
  have hhi : 0 < hi := lt_of_lt_of_le h0 hlh
  have key := C124_iterations S n a m h hd b x hb hx w lo hi h0 hlh (by
    intro v
    rw [hG]
    simp only [id]
    have hv0 := Example.dotFn_self_nonneg (n : Int) v
    have ha0 := Example.dotFn_self_nonneg (n : Int) (matVec n a v)
    have hE := (energy_pos pa v).1
    have hEdef : energy n a v = dotFn n v (matVec n a v) := rfl
    -- `E² ≤ (v, v) (Av, Av)` and `(Av, Av)² ≤ E (Av, A Av)`
    have c1 := Example.cauchy (dotFn_bilin (K := ℝ) (n : Int)) (fun u => Example.dotFn_self_nonneg _ u) v (matVec n a v)
    have c2 := Example.cauchy (B := fun u v => dotFn n u (matVec n a v))
      ⟨fun u v w => (dotFn_bilin (n : Int)).add_left _ _ _, fun c u w => (dotFn_bilin (n : Int)).smul_left _ _ _,
        fun u v => by rw [← dotFn_selfAdj hs, dotFn_symm]⟩ (fun u => (energy_pos pa u).1) v (matVec n a v)
    rw [← dotFn_selfAdj hs] at c2
    have b1 := (hev v).1
    have b2 := (hev (matVec n a v)).2
    rw [← hEdef] at b1 c1 c2
    constructor
    · by_cases hz : energy n a v = 0
      · rw [hz, mul_zero]; exact ha0
      · have hEp : 0 < energy n a v := lt_of_le_of_ne hE (Ne.symm hz)
        have : lo * energy n a v * energy n a v ≤ dotFn n (matVec n a v) (matVec n a v) * energy n a v := by nlinarith
        exact le_of_mul_le_mul_right this hEp
    · rcases ha0.eq_or_lt with hz | hz
      · rw [← hz]; positivity
      · have : dotFn n (matVec n a v) (matVec n a v) * dotFn n (matVec n a v) (matVec n a v)
            ≤ hi * energy n a v * dotFn n (matVec n a v) (matVec n a v) := by nlinarith
        exact le_of_mul_le_mul_right this hz) k hk1 hk htol habs
  rw [hG] at key
  exact key

/-- For the matrix `[[2, 1], [1, 3]]`, a relative tolerance of a hundredth and any limit above six: CG reports at most six iterations from anywhere.
(Rounding apart, two suffice for a matrix of this size; the theorem does not look at the size.) -/
example (S : Pcg ℝ) (hA : S.A = exSpdR.toOp) (hM : S.M = none) (hdot : S.dot = Vec.inner) (hr : S.relTol = 1 / 100) (ha : S.absTol ≠ 0)
    (hl : 6 < S.maxIter) (b x : List ℝ) (hb : b.length = 2) (hx : x.length = 2) (w : PcgState ℝ) :
    ∃ N st, S.mult b x w = .ok (N, st) ∧ N ≤ 6 := by
  have hs : SymmOn ((2 : Nat) : Int) exSpdR.coef := by
    intro i j i0 i1 j0 j1
    obtain ⟨c0, c1, c2, c3⟩ := exSpdR_coef
    obtain rfl | rfl : i = 0 ∨ i = 1 := by omega
    all_goals obtain rfl | rfl : j = 0 ∨ j = 1 := by omega
    · rfl
    · rw [c1, c2]
    · rw [c1, c2]
    · rfl
  have hok : S.Ok ((2 : Nat) : Int) exSpdR.coef exSpdR.coef :=
    ⟨by rw [hA]; exact C42_sparse_op exSpdR exSpdR_wf rfl, by rw [hM]; simp, hdot⟩
  obtain ⟨N, st, e, hN, -⟩ := C124_iterations_cg S 2 exSpdR.coef exSpdR.coef hok hs hM b x hb hx w 1 4 one_pos (by norm_num) (by
    intro v
    have e : Finset.Ico (0 : Int) ((2 : Nat) : Int) = {0, 1} := by decide
    obtain ⟨c0, c1, c2, c3⟩ := exSpdR_coef
    simp only [dotFn, matVec, e, Finset.sum_pair (show (0 : Int) ≠ 1 by decide), c0, c1, c2, c3]
    constructor <;> nlinarith [sq_nonneg (v 0 + v 1), sq_nonneg (v 0 - v 1), sq_nonneg (v 0), sq_nonneg (v 1)]) 6 (by norm_num) hl (by
    rw [hr, show ((4 : ℝ) / 1) = 4 by norm_num, show √(4 : ℝ) = 2 by rw [show (4 : ℝ) = 2 ^ 2 by norm_num]; exact Real.sqrt_sq (by norm_num), Real.sqrt_one]
    norm_num) (Or.inl ha)
  exact ⟨N, st, e, hN⟩

end Linalg
