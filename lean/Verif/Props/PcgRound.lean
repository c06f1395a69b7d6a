import Verif.Spec.RoundFlo
import Verif.Spec.Ieee
import Verif.Props.FloatsExact

/-!
# C129: how far the residual of PCG is from the true one, with rounding

`PCGSolver::Mult` updates its residual; it does not compute it from the solution.  With rounding the two drift apart.  The bound holds for every
preconditioner and inner product, and with overflow, underflow and NaN on the way, as long as the solution and the residual at the end are finite.
-/

namespace Linalg
open Cpp Floats

variable {F : Type} [Floats F]

/-! ## Inner products with rounding -/

section
variable [RoundLaws F]
open RoundLaws

/-- The relative error of a sum of `n` products. -/
noncomputable def relErr (F : Type) [Floats F] [RoundLaws F] (n : Nat) : ℝ := (1 + u F) ^ (n + 1) - 1

/-- What underflow adds to it. -/
noncomputable def absErr (F : Type) [Floats F] [RoundLaws F] (n : Nat) : ℝ := n * (1 + u F) ^ n * eta F

theorem one_le_pow_u (n : Nat) : 1 ≤ (1 + u F) ^ n := one_le_pow₀ (by have := u_nonneg (F := F); linarith)

theorem relErr_nonneg (n : Nat) : 0 ≤ relErr F n := by
  have := one_le_pow_u (F := F) (n + 1)
  unfold relErr
  linarith

theorem absErr_nonneg (n : Nat) : 0 ≤ absErr F n := by
  have := one_le_pow_u (F := F) n
  have h2 := eta_nonneg (F := F)
  unfold absErr
  positivity

theorem abs_sum_map {ι : Type} (f : ι → ℝ) (l : List ι) : |(l.map f).sum| ≤ (l.map (fun p => |f p|)).sum := by
  induction l with
  | nil => simp
  | cons a l ih =>
    simp only [List.map_cons, List.sum_cons]
    exact le_trans (abs_add_le _ _) (add_le_add le_rfl ih)

theorem sum_map_le {ι : Type} (f g : ι → ℝ) (l : List ι) (h : ∀ p ∈ l, f p ≤ g p) : (l.map f).sum ≤ (l.map g).sum := by
  induction l with
  | nil => simp
  | cons a l ih =>
    simp only [List.map_cons, List.sum_cons]
    exact add_le_add (h a (by simp)) (ih (fun p hp => h p (by simp [hp])))

theorem addUp_round (l : List (F × F)) (h : IsFin (addUp (l.map (fun p => p.1 * p.2)))) :
    (∀ p ∈ l, IsFin p.1 ∧ IsFin p.2) ∧
    |val (addUp (l.map (fun p => p.1 * p.2))) - (l.map (fun p => val p.1 * val p.2)).sum|
      ≤ relErr F l.length * (l.map (fun p => |val p.1 * val p.2|)).sum + absErr F l.length := by
  induction l using List.reverseRecOn with
  | nil =>
    refine ⟨fun p hp => by simp at hp, ?_⟩
    have e : addUp ([] : List F) = 0 := rfl
    simp only [List.map_nil, e, val_zero, List.sum_nil, sub_zero, abs_zero, mul_zero, zero_add]
    exact absErr_nonneg _
  | append_singleton l q ih =>
    have e : addUp ((l ++ [q]).map (fun p => p.1 * p.2)) = addUp (l.map (fun p => p.1 * p.2)) + q.1 * q.2 := by
      unfold addUp
      rw [List.map_append, List.foldl_append]
      rfl
    rw [e] at h ⊢
    obtain ⟨h1, h2, h3⟩ := RoundLaws.add _ _ h
    obtain ⟨h4, h5, h6⟩ := RoundLaws.mul _ _ h2
    obtain ⟨i1, i2⟩ := ih h1
    refine ⟨fun p hp => ?_, ?_⟩
    · rcases List.mem_append.mp hp with hp | hp
      · exact i1 p hp
      · obtain rfl : p = q := by simpa using hp
        exact ⟨h4, h5⟩
    · simp only [List.map_append, List.sum_append, List.map_cons, List.map_nil, List.sum_cons, List.sum_nil, add_zero, List.length_append,
        List.length_cons, List.length_nil, zero_add]
      generalize val (addUp (l.map (fun p => p.1 * p.2))) = s at *
      generalize val (q.1 * q.2) = c at *
      generalize val (addUp (l.map (fun p => p.1 * p.2)) + q.1 * q.2) = d at *
      generalize hw : val q.1 * val q.2 = w at *
      have hT : |(l.map (fun p => val p.1 * val p.2)).sum| ≤ (l.map (fun p => |val p.1 * val p.2|)).sum := by
        exact abs_sum_map _ l
      have hT0 : 0 ≤ (l.map (fun p => |val p.1 * val p.2|)).sum := le_trans (abs_nonneg _) hT
      generalize (l.map (fun p => val p.1 * val p.2)).sum = S at *
      generalize (l.map (fun p => |val p.1 * val p.2|)).sum = T at *
      have hu := u_nonneg (F := F)
      have he := eta_nonneg (F := F)
      generalize l.length = k at *
      have hw0 := abs_nonneg w
      -- the exact sum of the computed terms
      have a1 : |s + c - (S + w)| ≤ relErr F k * T + absErr F k + (u F * |w| + eta F) := by
        have : s + c - (S + w) = (s - S) + (c - w) := by ring
        rw [this]
        exact le_trans (abs_add_le _ _) (add_le_add i2 h6)
      have a2 : |s + c| ≤ |s + c - (S + w)| + (T + |w|) := by
        have : s + c = (s + c - (S + w)) + (S + w) := by ring
        calc |s + c| = |(s + c - (S + w)) + (S + w)| := by rw [← this]
          _ ≤ |s + c - (S + w)| + |S + w| := abs_add_le _ _
          _ ≤ _ := add_le_add le_rfl (le_trans (abs_add_le _ _) (add_le_add hT le_rfl))
      have a3 : |d - (S + w)| ≤ (1 + u F) * |s + c - (S + w)| + u F * (T + |w|) := by
        have : d - (S + w) = (d - (s + c)) + (s + c - (S + w)) := by ring
        calc |d - (S + w)| ≤ |d - (s + c)| + |s + c - (S + w)| := by rw [this]; exact abs_add_le _ _
          _ ≤ u F * (|s + c - (S + w)| + (T + |w|)) + |s + c - (S + w)| :=
            add_le_add (le_trans h3 (mul_le_mul_of_nonneg_left a2 hu)) le_rfl
          _ = _ := by ring
      refine le_trans a3 ?_
      have a4 := mul_le_mul_of_nonneg_left a1 (show 0 ≤ 1 + u F by linarith)
      have hp := one_le_pow_u (F := F) k
      unfold relErr absErr at *
      have e1 : (1 + u F) ^ (k + 1 + 1) = (1 + u F) ^ k * (1 + u F) * (1 + u F) := by ring
      have e2 : (1 + u F) ^ (k + 1) = (1 + u F) ^ k * (1 + u F) := by ring
      rw [e1, e2]
      rw [e2] at a4
      generalize (1 + u F) ^ k = P at *
      push_cast
      have b1 : 0 ≤ (P - 1) * |w| := mul_nonneg (by linarith) hw0
      have b2 : 0 ≤ (P - 1) * eta F := mul_nonneg (by linarith) he
      have b3 : 0 ≤ (P - 1) * |w| * (2 * u F + u F * u F) := mul_nonneg b1 (by positivity)
      have b4 : 0 ≤ (P - 1) * eta F * u F := mul_nonneg b2 hu
      nlinarith

/-- An element of the rounded product of a sparse matrix and a vector, if it is finite. -/
theorem mult_round (A : Csr F) (x : List F) (i : Int) (h : IsFin (addUp ((A.row i).map (fun e => e.2 * vecAt x e.1)))) :
    (∀ e ∈ A.row i, IsFin e.2 ∧ IsFin (vecAt x e.1)) ∧
    |val (addUp ((A.row i).map (fun e => e.2 * vecAt x e.1))) - A.valMul x i|
      ≤ relErr F (A.row i).length * ((A.row i).map (fun e => |val e.2 * valAt x e.1|)).sum + absErr F (A.row i).length := by
  have := addUp_round ((A.row i).map (fun e => (e.2, vecAt x e.1)))
  simp only [List.map_map, Function.comp_def, List.length_map, List.mem_map, forall_exists_index, and_imp, forall_apply_eq_imp_iff₂] at this
  exact this h

end

/-! ## The passes of the loop -/

/-- One pass of the loop of `PCGSolver::Mult` leads from `s` to `t`. -/
def Pcg.Pass (S : Pcg F) (low tol : F) (s t : PcgState F) : Prop := ∃ stop, S.stepF low tol s = .ok (stop, t)

theorem update_ok {f : F → F → F} {x y z : List F} (h : Vec.update f x y = .ok z) :
    y.length = x.length ∧ z.length = x.length ∧ ∀ i : Int, 0 ≤ i → i < x.length → vecAt z i = f (vecAt x i) (vecAt y i) := by
  have hl : y.length = x.length := by
    unfold Vec.update at h
    rw [bind_eq_ok] at h
    obtain ⟨_, h1, -⟩ := h
    rw [cassert_ok_iff] at h1
    exact h1
  rw [update_fn f rfl hl] at h
  obtain rfl := Except.ok.inj h
  exact ⟨hl, by simp, fun i i0 i1 => vecAt_fn _ i0 i1⟩

/-- What a pass computes. -/
theorem Pcg.stepF_ok {S : Pcg F} {low tol : F} {s t : PcgState F} {stop : Bool} (h : S.stepF low tol s = .ok (stop, t)) :
    ∃ pAp rz d, S.A.multResize s.p s.Ap = .ok t.Ap ∧ S.dot s.p t.Ap = .ok pAp ∧ S.dot s.r s.z = .ok rz ∧
      Vec.update (fun u v => u + rz / pAp * v) s.x s.p = .ok t.x ∧ Vec.update (fun u v => u - rz / pAp * v) s.r t.Ap = .ok t.r ∧
      S.precond t.r s.z = .ok t.z ∧ S.dot t.z t.r = .ok d ∧ stop = lt d tol := by
  unfold Pcg.stepF at h
  rw [bind_eq_ok] at h
  obtain ⟨Ap, h1, h⟩ := h
  rw [bind_eq_ok] at h
  obtain ⟨pAp, h2, h⟩ := h
  rw [bind_eq_ok] at h
  obtain ⟨rz, h3, h⟩ := h
  simp only at h
  rw [bind_eq_ok] at h
  obtain ⟨_, -, h⟩ := h
  rw [bind_eq_ok] at h
  obtain ⟨x, h4, h⟩ := h
  rw [bind_eq_ok] at h
  obtain ⟨denom, -, h⟩ := h
  rw [bind_eq_ok] at h
  obtain ⟨r, h5, h⟩ := h
  rw [bind_eq_ok] at h
  obtain ⟨z, h6, h⟩ := h
  rw [bind_eq_ok] at h
  obtain ⟨d, h7, h⟩ := h
  split at h
  · next hlt =>
    obtain ⟨rfl, rfl⟩ := Prod.mk.inj (Except.ok.inj h)
    exact ⟨pAp, rz, d, h1, h2, h3, h4, h5, h6, h7, hlt.symm⟩
  · next hlt =>
    rw [bind_eq_ok] at h
    obtain ⟨p, -, h⟩ := h
    obtain ⟨rfl, rfl⟩ := Prod.mk.inj (Except.ok.inj h)
    exact ⟨pAp, rz, d, h1, h2, h3, h4, h5, h6, h7, by simpa using hlt⟩

theorem Pcg.loopF_ok {S : Pcg F} {low tol : F} (fuel : Nat) (k : Int) (s st : PcgState F) (N : Int) (h : S.loopF low tol fuel k s = .ok (N, st)) :
    ∃ tr : List (PcgState F), (s :: tr).IsChain (S.Pass low tol) ∧ (s :: tr).getLast (by simp) = st ∧ tr ≠ [] ∧
      ((N = k - 1 + tr.length ∧ tr.length ≤ fuel + 1 ∧ ∃ d, S.dot st.z st.r = .ok d ∧ lt d tol = true) ∨ (tr.length = fuel + 1 ∧ N = k + fuel + 1)) := by
  induction fuel generalizing k s with
  | zero =>
    unfold Pcg.loopF at h
    rw [bind_eq_ok] at h
    obtain ⟨⟨stop, t⟩, h1, h⟩ := h
    obtain ⟨h2, rfl⟩ := Prod.mk.inj (Except.ok.inj h)
    refine ⟨[t], ?_, rfl, by simp, ?_⟩
    · simp only [List.isChain_cons_cons, List.isChain_singleton, and_true]
      exact ⟨stop, h1⟩
    · obtain ⟨pAp, rz, d, -, -, -, -, -, -, h3, h4⟩ := Pcg.stepF_ok h1
      cases stop with
      | true => exact Or.inl ⟨by simpa using h2.symm, by simp, d, h3, h4.symm⟩
      | false => exact Or.inr ⟨by simp, by simpa using h2.symm⟩
  | succ n ih =>
    unfold Pcg.loopF at h
    rw [bind_eq_ok] at h
    obtain ⟨⟨stop, t⟩, h1, h⟩ := h
    split at h
    · next hs =>
      obtain ⟨rfl, rfl⟩ := Prod.mk.inj (Except.ok.inj h)
      refine ⟨[t], ?_, rfl, by simp, ?_⟩
      · simp only [List.isChain_cons_cons, List.isChain_singleton, and_true]
        exact ⟨stop, h1⟩
      · obtain ⟨pAp, rz, d, -, -, -, -, -, -, h3, h4⟩ := Pcg.stepF_ok h1
        exact Or.inl ⟨by simp, by simp, d, h3, h4 ▸ hs⟩
    · obtain ⟨tr, h2, h3, h4, h5⟩ := ih (k + 1) t h
      refine ⟨t :: tr, ?_, ?_, by simp, ?_⟩
      · rw [List.isChain_cons_cons]
        exact ⟨⟨stop, h1⟩, h2⟩
      · rw [List.getLast_cons (by simp)]
        exact h3
      · obtain ⟨h5, h6, h7⟩ | ⟨h5, h6⟩ := h5
        · exact Or.inl ⟨by rw [h5, List.length_cons]; push_cast; ring, by rw [List.length_cons]; omega, h7⟩
        · exact Or.inr ⟨by rw [List.length_cons]; omega, by rw [h6]; push_cast; ring⟩

/-- The tolerance that `PCGSolver::Mult` compares with. -/
def Pcg.tolF (S : Pcg F) (r0 : F) : F := Flt.stdMax (r0 * S.relTol * S.relTol) (S.absTol * S.absTol)

/-- **C129.**  A run of `PCGSolver::Mult` that returns is a first state, made from the arguments, and a number of passes, at most `max(1, max_iter - 1)`.
If it reports fewer than `max_iter` iterations, the last inner product of the residual passed the test. -/
theorem C129_passes (S : Pcg F) (low : F) (b x : List F) (w : PcgState F) (N : Int) (st : PcgState F) (h : S.multF low b x w = .ok (N, st)) :
    (x.length : Int) = S.A.rows ∧ (b.length : Int) = S.A.rows ∧
    ∃ s r0 tr, S.startF b { w with x := x, applied := 0 } = .ok s ∧ S.dot s.z s.r = .ok r0 ∧
      (s :: tr).IsChain (S.Pass low (S.tolF r0)) ∧ (s :: tr).getLast (by simp) = st ∧
      (tr.length : Int) ≤ max 1 (S.maxIter - 1) ∧ (tr.length : Int) ≤ N ∧
      (N < S.maxIter ∨ tr = [] → ∃ d, S.dot st.z st.r = .ok d ∧ lt d (S.tolF r0) = true) := by
  unfold Pcg.multF at h
  rw [bind_eq_ok] at h
  obtain ⟨_, h1, h⟩ := h
  rw [bind_eq_ok] at h
  obtain ⟨_, h2, h⟩ := h
  rw [cassert_ok_iff] at h1 h2
  rw [bind_eq_ok] at h
  obtain ⟨s, h3, h⟩ := h
  rw [bind_eq_ok] at h
  obtain ⟨r0, h4, h⟩ := h
  simp only at h
  rw [bind_eq_ok] at h
  obtain ⟨now, h5, h⟩ := h
  rw [h4] at h5
  obtain rfl := Except.ok.inj h5
  refine ⟨h1, h2, s, r0, ?_⟩
  split at h
  · next hlt =>
    obtain ⟨rfl, rfl⟩ := Prod.mk.inj (Except.ok.inj h)
    refine ⟨[], h3, h4, List.isChain_singleton _, rfl, ?_, by simp, fun _ => ⟨r0, h4, hlt⟩⟩
    rw [List.length_nil]
    exact le_trans (by decide) (le_max_left _ _)
  · obtain ⟨tr, h6, h7, h8, h9⟩ := Pcg.loopF_ok _ 1 s st N h
    refine ⟨tr, h3, h4, h6, h7, ?_, ?_, ?_⟩
    · have : tr.length ≤ (S.maxIter - 2).toNat + 1 := by obtain ⟨-, h, -⟩ | ⟨h, -⟩ := h9 <;> omega
      have h10 := le_max_left (1 : Int) (S.maxIter - 1)
      have h11 := le_max_right (1 : Int) (S.maxIter - 1)
      omega
    · obtain ⟨h, -, -⟩ | ⟨h, h'⟩ := h9 <;> omega
    · rintro (h10 | h10)
      · obtain ⟨-, -, h⟩ | ⟨h, h'⟩ := h9
        · exact h
        · omega
      · exact (h8 h10).elim

/-! ## The gap -/

section
variable [RoundLaws F]
open RoundLaws

theorem near_bound {u η a t c w x X : ℝ} (hu : 0 ≤ u) (hu' : u ≤ 1 / 2) (hη : 0 ≤ η) (h1 : |c - w| ≤ u * |w| + η) (h2 : |x - t| ≤ u * |t|)
    (ht : t = a + c) (ha : |a| ≤ X) (hx : |x| ≤ X) : |w| ≤ 6 * X + 2 * η ∧ |x - (a + w)| ≤ 8 * u * X + 2 * η := by
  have hX : 0 ≤ X := le_trans (abs_nonneg _) ha
  have h3 : |t| ≤ |x| + u * |t| := by
    have : t = x - (x - t) := by ring
    calc |t| = |x - (x - t)| := by rw [← this]
      _ ≤ |x| + |x - t| := abs_sub _ _
      _ ≤ _ := add_le_add le_rfl h2
  have h4 : |t| ≤ 2 * X := by nlinarith [abs_nonneg t]
  have h5 : |c| ≤ 3 * X := by
    have : c = t - a := by rw [ht]; ring
    calc |c| = |t - a| := by rw [this]
      _ ≤ |t| + |a| := abs_sub _ _
      _ ≤ _ := by linarith
  have h6 : |w| ≤ |c| + (u * |w| + η) := by
    have : w = c - (c - w) := by ring
    calc |w| = |c - (c - w)| := by rw [← this]
      _ ≤ |c| + |c - w| := abs_sub _ _
      _ ≤ _ := add_le_add le_rfl h1
  have h7 : |w| ≤ 6 * X + 2 * η := by nlinarith [abs_nonneg w]
  refine ⟨h7, ?_⟩
  have h8 : x - (a + w) = (x - t) + (c - w) := by rw [ht]; ring
  calc |x - (a + w)| ≤ |x - t| + |c - w| := by rw [h8]; exact abs_add_le _ _
    _ ≤ u * |t| + (u * |w| + η) := add_le_add h2 h1
    _ ≤ u * (2 * X) + (u * (6 * X + 2 * η) + η) := by
      have := mul_le_mul_of_nonneg_left h4 hu
      have := mul_le_mul_of_nonneg_left h7 hu
      linarith
    _ ≤ _ := by nlinarith

/-- `a + c * d` with a finite result. -/
theorem axpy_round (hu : u F ≤ 1 / 2) (a c d : F) (h : IsFin (a + c * d)) :
    IsFin a ∧ IsFin c ∧ IsFin d ∧ ∀ X, |val a| ≤ X → |val (a + c * d)| ≤ X →
      |val c * val d| ≤ 6 * X + 2 * eta F ∧ |val (a + c * d) - (val a + val c * val d)| ≤ 8 * u F * X + 2 * eta F := by
  obtain ⟨h1, h2, h3⟩ := RoundLaws.add _ _ h
  obtain ⟨h4, h5, h6⟩ := RoundLaws.mul _ _ h2
  exact ⟨h1, h4, h5, fun X ha hx => near_bound u_nonneg hu eta_nonneg h6 h3 rfl ha hx⟩

/-- `a - c * d` with a finite result. -/
theorem axmy_round (hu : u F ≤ 1 / 2) (a c d : F) (h : IsFin (a - c * d)) :
    IsFin a ∧ IsFin c ∧ IsFin d ∧ ∀ X, |val a| ≤ X → |val (a - c * d)| ≤ X →
      |val c * val d| ≤ 6 * X + 2 * eta F ∧ |val (a - c * d) - (val a - val c * val d)| ≤ 8 * u F * X + 2 * eta F := by
  obtain ⟨h1, h2, h3⟩ := RoundLaws.sub _ _ h
  obtain ⟨h4, h5, h6⟩ := RoundLaws.mul _ _ h2
  refine ⟨h1, h4, h5, fun X ha hx => ?_⟩
  have h6' : |-val (c * d) - -(val c * val d)| ≤ u F * |-(val c * val d)| + eta F := by
    rw [abs_neg, ← abs_neg (-val (c * d) - _)]
    convert h6 using 2
    ring
  obtain ⟨g1, g2⟩ := near_bound u_nonneg hu eta_nonneg h6' h3 (sub_eq_add_neg _ _) ha hx
  rw [abs_neg] at g1
  exact ⟨g1, by rwa [← sub_eq_add_neg] at g2⟩

/-- Every element is finite. -/
def FinVec (x : List F) : Prop := ∀ i : Int, 0 ≤ i → i < x.length → IsFin (vecAt x i)

/-- The length of the step from `s` to `t`, as computed. -/
def Pcg.StepLe (S : Pcg F) (L : ℝ) (s t : PcgState F) : Prop := ∀ rz pAp, S.dot s.r s.z = .ok rz → S.dot s.p t.Ap = .ok pAp → |val (rz / pAp)| ≤ L

/-- What one pass can add to the gap of row `i`, if the elements of the solutions are at most `X`, those of the residuals at most `R` and the step lengths at
most `L`. -/
noncomputable def gapStep (A : Csr F) (X R L : ℝ) (i : Int) : ℝ :=
  relErr F (A.row i).length * A.valSum i * (6 * X + 2 * eta F) + L * absErr F (A.row i).length + A.valSum i * (8 * u F * X + 2 * eta F) +
    (8 * u F * R + 2 * eta F)

theorem multResize_ok (A : Csr F) (hA : A.WF) {x y z : List F} (h : A.toOp.multResize x y = .ok z) :
    (x.length : Int) = A.cols ∧ (z.length : Int) = A.rows ∧ ∀ i, 0 ≤ i → i < A.rows → vecAt z i = addUp ((A.row i).map (fun e => e.2 * vecAt x e.1)) := by
  unfold Op.multResize at h
  rw [bind_eq_ok] at h
  obtain ⟨y', -, h⟩ := h
  have h' : A.mult x y' = .ok z := h
  have hs : (x.length : Int) = A.cols ∧ (y'.length : Int) = A.rows := by
    have e' := h'
    unfold Csr.mult at e'
    rw [bind_eq_ok] at e'
    obtain ⟨_, h1, e'⟩ := e'
    rw [bind_eq_ok] at e'
    obtain ⟨_, h2, -⟩ := e'
    rw [cassert_ok_iff] at h1 h2
    exact ⟨h1, h2⟩
  obtain ⟨z', h1, h2⟩ := C103_mult A hA x y' hs.1 hs.2
  rw [h'] at h1
  obtain rfl := Except.ok.inj h1
  exact ⟨hs.1, h2.length_eq, fun i i0 i1 => h2.vecAt_eq i0 i1⟩

/-- One pass: if the new solution and residual are finite, so are the old, and the sum of `A x` and the residual changes little. -/
theorem pass_gap (hu : u F ≤ 1 / 2) (S : Pcg F) (A : Csr F) (hA : A.WF) (n : Nat) (hr : A.rows = n) (hS : S.A = A.toOp) (low tol : F)
    (s t : PcgState F) (hx : s.x.length = n) (hp : S.Pass low tol s t) (ft : FinVec t.x) (gt : FinVec t.r) (hrl : s.r.length = n) :
    t.x.length = n ∧ t.r.length = n ∧ FinVec s.x ∧ FinVec s.r ∧
    ∀ X R L, (∀ i : Int, 0 ≤ i → i < n → |valAt s.x i| ≤ X ∧ |valAt t.x i| ≤ X ∧ |valAt s.r i| ≤ R ∧ |valAt t.r i| ≤ R) → S.StepLe L s t →
      ∀ i : Int, 0 ≤ i → i < n → |(A.valMul t.x i + valAt t.r i) - (A.valMul s.x i + valAt s.r i)| ≤ gapStep A X R L i := by
  obtain ⟨stop, hp⟩ := hp
  obtain ⟨pAp, rz, d, h1, h2, h3, h4, h5, -, -, -⟩ := Pcg.stepF_ok hp
  obtain ⟨l1, l2, hxe⟩ := update_ok h4
  obtain ⟨l3, l4, hre⟩ := update_ok h5
  rw [hS] at h1
  obtain ⟨m1, m2, m3⟩ := multResize_ok A hA h1
  have hc : A.cols = n := by rw [← m1, l1, hx]
  have hxf : ∀ i : Int, 0 ≤ i → i < n → IsFin (vecAt s.x i + rz / pAp * vecAt s.p i) := by
    intro i i0 i1
    rw [← hxe i i0 (by rw [hx]; exact i1)]
    exact ft i i0 (by rw [l2, hx]; exact i1)
  have hrf : ∀ i : Int, 0 ≤ i → i < n → IsFin (vecAt s.r i - rz / pAp * vecAt t.Ap i) := by
    intro i i0 i1
    rw [← hre i i0 (by rw [hrl]; exact i1)]
    exact gt i i0 (by rw [l4, hrl]; exact i1)
  refine ⟨by rw [l2, hx], by rw [l4, hrl], fun i i0 i1 => (axpy_round hu _ _ _ (hxf i i0 (by rw [hx] at i1; exact i1))).1,
    fun i i0 i1 => (axmy_round hu _ _ _ (hrf i i0 (by rw [hrl] at i1; exact i1))).1, ?_⟩
  intro X R L hb hL i i0 i1
  have hα := hL rz pAp h3 h2
  -- the rows
  have hxi : ∀ j : Int, 0 ≤ j → j < n → |val (rz / pAp) * valAt s.p j| ≤ 6 * X + 2 * eta F ∧
      |valAt t.x j - (valAt s.x j + val (rz / pAp) * valAt s.p j)| ≤ 8 * u F * X + 2 * eta F := by
    intro j j0 j1
    obtain ⟨-, -, -, hk⟩ := axpy_round hu _ _ _ (hxf j j0 j1)
    obtain ⟨b1, b2, -, -⟩ := hb j j0 j1
    have e := hxe j j0 (by rw [hx]; exact j1)
    unfold valAt at b1 b2 ⊢
    rw [e] at b2 ⊢
    exact hk X b1 b2
  obtain ⟨-, -, hfA, hk⟩ := axmy_round hu _ _ _ (hrf i i0 i1)
  obtain ⟨-, -, b3, b4⟩ := hb i i0 i1
  have e := hre i i0 (by rw [hrl]; exact i1)
  have hri : |valAt t.r i - (valAt s.r i - val (rz / pAp) * valAt t.Ap i)| ≤ 8 * u F * R + 2 * eta F := by
    unfold valAt at b3 b4 ⊢
    rw [e] at b4 ⊢
    exact (hk R b3 b4).2
  have hm := m3 i i0 (by rw [hr]; exact i1)
  rw [hm] at hfA
  obtain ⟨hfe, hmul⟩ := mult_round A s.p i hfA
  rw [← hm] at hmul
  change |valAt t.Ap i - A.valMul s.p i| ≤ _ at hmul
  have hcols : ∀ e ∈ A.row i, 0 ≤ e.1 ∧ e.1 < (n : Int) := by
    intro e he
    have := (Csr.mem_row_ok hA he).2.2
    rwa [hc] at this
  generalize val (rz / pAp) = α at *
  -- the differences
  have key : (A.valMul t.x i + valAt t.r i) - (A.valMul s.x i + valAt s.r i)
      = ((A.row i).map (fun e => val e.2 * (valAt t.x e.1 - (valAt s.x e.1 + α * valAt s.p e.1)))).sum
        + (valAt t.r i - (valAt s.r i - α * valAt t.Ap i)) - α * (valAt t.Ap i - A.valMul s.p i) := by
    have : ∀ l : List (Int × F), (l.map (fun e => val e.2 * (valAt t.x e.1 - (valAt s.x e.1 + α * valAt s.p e.1)))).sum
        = (l.map (fun e => val e.2 * valAt t.x e.1)).sum - (l.map (fun e => val e.2 * valAt s.x e.1)).sum - α * (l.map (fun e => val e.2 * valAt s.p e.1)).sum := by
      intro l
      induction l with
      | nil => simp
      | cons a l ih => simp only [List.map_cons, List.sum_cons, ih]; ring
    rw [this]
    unfold Csr.valMul
    ring
  rw [key]
  have k1 : |((A.row i).map (fun e => val e.2 * (valAt t.x e.1 - (valAt s.x e.1 + α * valAt s.p e.1)))).sum| ≤ A.valSum i * (8 * u F * X + 2 * eta F) := by
    refine le_trans (abs_sum_map _ _) ?_
    unfold Csr.valSum
    rw [← List.sum_map_mul_right]
    refine sum_map_le _ _ _ (fun e he => ?_)
    rw [abs_mul]
    exact mul_le_mul_of_nonneg_left (hxi e.1 (hcols e he).1 (hcols e he).2).2 (abs_nonneg _)
  have k2 : |α * (valAt t.Ap i - A.valMul s.p i)| ≤ relErr F (A.row i).length * A.valSum i * (6 * X + 2 * eta F) + L * absErr F (A.row i).length := by
    rw [abs_mul]
    refine le_trans (mul_le_mul_of_nonneg_left hmul (abs_nonneg _)) ?_
    rw [mul_add]
    refine add_le_add ?_ (mul_le_mul_of_nonneg_right hα (absErr_nonneg _))
    rw [mul_left_comm, mul_assoc (relErr F _)]
    refine mul_le_mul_of_nonneg_left ?_ (relErr_nonneg _)
    unfold Csr.valSum
    rw [← List.sum_map_mul_right, ← List.sum_map_mul_left]
    refine sum_map_le _ _ _ (fun e he => ?_)
    have : |α| * |val e.2 * valAt s.p e.1| = |val e.2| * |α * valAt s.p e.1| := by rw [abs_mul, abs_mul]; ring
    rw [this]
    exact mul_le_mul_of_nonneg_left (hxi e.1 (hcols e he).1 (hcols e he).2).1 (abs_nonneg _)
  refine le_trans (abs_sub _ _) ?_
  refine le_trans (add_le_add (abs_add_le _ _) le_rfl) ?_
  unfold gapStep
  linarith

/-- The sizes of the states of a run. -/
theorem pass_size (S : Pcg F) (low tol : F) (s t : PcgState F) (hp : S.Pass low tol s t) : t.x.length = s.x.length ∧ t.r.length = s.r.length := by
  obtain ⟨stop, hp⟩ := hp
  obtain ⟨pAp, rz, d, h1, h2, h3, h4, h5, -, -, -⟩ := Pcg.stepF_ok hp
  exact ⟨(update_ok h4).2.1, (update_ok h5).2.1⟩

theorem chain_gap (hu : u F ≤ 1 / 2) (S : Pcg F) (A : Csr F) (hA : A.WF) (n : Nat) (hr : A.rows = n) (hS : S.A = A.toOp) (low tol : F)
    (tr : List (PcgState F)) (s : PcgState F) (hx : s.x.length = n) (hrl : s.r.length = n) (hc : (s :: tr).IsChain (S.Pass low tol))
    (fx : FinVec ((s :: tr).getLast (by simp)).x) (fr : FinVec ((s :: tr).getLast (by simp)).r) :
    (∀ t ∈ s :: tr, FinVec t.x ∧ FinVec t.r) ∧
    ∀ X R L, (∀ t ∈ s :: tr, ∀ i : Int, 0 ≤ i → i < n → |valAt t.x i| ≤ X ∧ |valAt t.r i| ≤ R) → (s :: tr).IsChain (S.StepLe L) →
      ∀ i : Int, 0 ≤ i → i < n → |(A.valMul ((s :: tr).getLast (by simp)).x i + valAt ((s :: tr).getLast (by simp)).r i) - (A.valMul s.x i + valAt s.r i)|
        ≤ tr.length * gapStep A X R L i := by
  induction tr generalizing s with
  | nil =>
    refine ⟨fun t ht => ?_, fun X R L _ _ i _ _ => ?_⟩
    · obtain rfl : t = s := by simpa using ht
      exact ⟨fx, fr⟩
    · simp
  | cons t tr ih =>
    rw [List.isChain_cons_cons] at hc
    obtain ⟨z1, z2⟩ := pass_size S low tol s t hc.1
    simp only [List.getLast_cons_cons] at fx fr ⊢
    obtain ⟨i1, i2⟩ := ih t (by rw [z1, hx]) (by rw [z2, hrl]) hc.2 fx fr
    obtain ⟨ft, gt⟩ := i1 t (by simp)
    obtain ⟨-, -, g3, g4, g5⟩ := pass_gap hu S A hA n hr hS low tol s t hx hc.1 ft gt hrl
    refine ⟨fun t' ht => ?_, fun X R L hb hL i j0 j1 => ?_⟩
    · rcases List.mem_cons.mp ht with rfl | ht
      · exact ⟨g3, g4⟩
      · exact i1 t' ht
    · rw [List.isChain_cons_cons] at hL
      have k1 := i2 X R L (fun t' ht => hb t' (by simp [ht])) hL.2 i j0 j1
      have k2 := g5 X R L (fun j j0 j1 => ⟨(hb s (by simp) j j0 j1).1, (hb t (by simp) j j0 j1).1, (hb s (by simp) j j0 j1).2, (hb t (by simp) j j0 j1).2⟩)
        hL.1 i j0 j1
      rw [List.length_cons]
      push_cast
      refine le_trans (abs_sub_le _ (A.valMul t.x i + valAt t.r i) _) ?_
      linarith

/-- What the first residual can be off by. -/
noncomputable def gapStart (A : Csr F) (X R : ℝ) (i : Int) : ℝ :=
  relErr F (A.row i).length * A.valSum i * X + absErr F (A.row i).length + 2 * u F * R

theorem start_gap (hu : u F ≤ 1 / 2) (S : Pcg F) (A : Csr F) (hA : A.WF) (n : Nat) (hr : A.rows = n) (hS : S.A = A.toOp) (b : List F)
    (w s : PcgState F) (hb : b.length = n) (hw : w.x.length = n) (h : S.startF b w = .ok s) :
    s.x = w.x ∧ s.r.length = n ∧ (FinVec s.r → FinVec b ∧ ∀ X R, (∀ i : Int, 0 ≤ i → i < n → |valAt s.x i| ≤ X ∧ |valAt s.r i| ≤ R) →
      ∀ i : Int, 0 ≤ i → i < n → |valAt b i - (A.valMul s.x i + valAt s.r i)| ≤ gapStart A X R i) := by
  unfold Pcg.startF at h
  rw [bind_eq_ok] at h
  obtain ⟨Ap, h1, h⟩ := h
  rw [bind_eq_ok] at h
  obtain ⟨r, h2, h⟩ := h
  rw [bind_eq_ok] at h
  obtain ⟨z, -, h⟩ := h
  obtain rfl := (Except.ok.inj h).symm
  obtain ⟨l1, l2, hre⟩ := update_ok h2
  rw [hS] at h1
  obtain ⟨m1, m2, m3⟩ := multResize_ok A hA h1
  have hc : A.cols = w.x.length := m1.symm
  refine ⟨rfl, by rw [l2, hb], fun fr => ?_⟩
  have hf : ∀ i : Int, 0 ≤ i → i < n → IsFin (vecAt b i - vecAt Ap i) := by
    intro i i0 i1
    rw [← hre i i0 (by rw [hb]; exact i1)]
    exact fr i i0 (by change i < (r.length : Int); rw [l2, hb]; exact i1)
  refine ⟨fun i i0 i1 => (RoundLaws.sub _ _ (hf i i0 (by rw [hb] at i1; exact i1))).1, fun X R hXR i i0 i1 => ?_⟩
  obtain ⟨-, fA, hs⟩ := RoundLaws.sub _ _ (hf i i0 i1)
  have hm := m3 i i0 (by rw [hr]; exact i1)
  rw [hm] at fA
  obtain ⟨hfe, hmul⟩ := mult_round A w.x i fA
  rw [← hm] at hmul
  change |valAt Ap i - A.valMul w.x i| ≤ _ at hmul
  have hri := (hXR i i0 i1).2
  have e := hre i i0 (by rw [hb]; exact i1)
  change |valAt r i| ≤ R at hri
  rw [← e] at hs
  change |valAt r i - (valAt b i - valAt Ap i)| ≤ u F * |valAt b i - valAt Ap i| at hs
  have hd : |valAt b i - valAt Ap i| ≤ 2 * R := by
    have : |valAt b i - valAt Ap i| ≤ |valAt r i| + |valAt r i - (valAt b i - valAt Ap i)| := by
      have e : valAt b i - valAt Ap i = valAt r i - (valAt r i - (valAt b i - valAt Ap i)) := by ring
      calc |valAt b i - valAt Ap i| = |valAt r i - (valAt r i - (valAt b i - valAt Ap i))| := by rw [← e]
        _ ≤ _ := abs_sub _ _
    nlinarith [abs_nonneg (valAt b i - valAt Ap i)]
  have hX : ((A.row i).map (fun e => |val e.2 * valAt w.x e.1|)).sum ≤ A.valSum i * X := by
    unfold Csr.valSum
    rw [← List.sum_map_mul_right]
    refine sum_map_le _ _ _ (fun e he => ?_)
    rw [abs_mul]
    have hcol := (Csr.mem_row_ok hA he).2.2
    exact mul_le_mul_of_nonneg_left (hXR e.1 hcol.1 (by omega)).1 (abs_nonneg _)
  have key : valAt b i - (A.valMul w.x i + valAt r i) = (valAt Ap i - A.valMul w.x i) - (valAt r i - (valAt b i - valAt Ap i)) := by ring
  change |valAt b i - (A.valMul w.x i + valAt r i)| ≤ _
  rw [key]
  refine le_trans (abs_sub _ _) ?_
  unfold gapStart
  have k1 := mul_le_mul_of_nonneg_left hX (relErr_nonneg (F := F) (A.row i).length)
  have k2 := mul_le_mul_of_nonneg_left hd (u_nonneg (F := F))
  nlinarith

/-- **C129.**  If the solution and the residual that `PCGSolver::Mult` ends with are finite, everything before was, and the residual differs from
`b - A x`, computed without rounding, by at most `gapStart` and a `gapStep` for each pass.  `X`, `R` and `L` bound the elements of the solutions, those of
the residuals and the step lengths of the run; any preconditioner and inner product. -/
theorem C129_gap (hu : u F ≤ 1 / 2) (S : Pcg F) (A : Csr F) (hA : A.WF) (n : Nat) (hr : A.rows = n) (hS : S.A = A.toOp) (low : F) (b x : List F)
    (w : PcgState F) (N : Int) (st : PcgState F) (h : S.multF low b x w = .ok (N, st)) (fx : FinVec st.x) (fr : FinVec st.r) :
    st.x.length = n ∧ st.r.length = n ∧ FinVec b ∧ FinVec x ∧
    ∃ s r0 tr, S.startF b { w with x := x, applied := 0 } = .ok s ∧ s.x = x ∧ S.dot s.z s.r = .ok r0 ∧
      (s :: tr).IsChain (S.Pass low (S.tolF r0)) ∧ (s :: tr).getLast (by simp) = st ∧
      (tr.length : Int) ≤ max 1 (S.maxIter - 1) ∧ (tr.length : Int) ≤ N ∧
      (∀ t ∈ s :: tr, FinVec t.x ∧ FinVec t.r) ∧
      ∀ X R L, (∀ t ∈ s :: tr, ∀ i : Int, 0 ≤ i → i < n → |valAt t.x i| ≤ X ∧ |valAt t.r i| ≤ R) → (s :: tr).IsChain (S.StepLe L) →
        ∀ i : Int, 0 ≤ i → i < n → |valAt b i - A.valMul st.x i - valAt st.r i| ≤ gapStart A X R i + tr.length * gapStep A X R L i := by
  obtain ⟨lx, lb, s, r0, tr, h1, h2, h3, h4, h5, h6, -⟩ := C129_passes S low b x w N st h
  have hrows : S.A.rows = n := by rw [hS]; exact hr
  have lx' : x.length = n := by rw [hrows] at lx; exact_mod_cast lx
  have lb' : b.length = n := by rw [hrows] at lb; exact_mod_cast lb
  obtain ⟨g1, g2, g3⟩ := start_gap hu S A hA n hr hS b _ s lb' lx' h1
  change s.x = x at g1
  have hsx : s.x.length = n := by rw [g1, lx']
  subst h4
  obtain ⟨k1, k2⟩ := chain_gap hu S A hA n hr hS low (S.tolF r0) tr s hsx g2 h3 fx fr
  obtain ⟨f1, f2⟩ := k1 s (by simp)
  obtain ⟨g4, g5⟩ := g3 f2
  have hlen : ∀ (tr : List (PcgState F)) (s : PcgState F), (s :: tr).IsChain (S.Pass low (S.tolF r0)) → s.x.length = n → s.r.length = n →
      ((s :: tr).getLast (by simp)).x.length = n ∧ ((s :: tr).getLast (by simp)).r.length = n := by
    intro tr
    induction tr with
    | nil => intro s _ h1 h2; exact ⟨h1, h2⟩
    | cons t tr ih =>
      intro s hc h1 h2
      rw [List.isChain_cons_cons] at hc
      obtain ⟨z1, z2⟩ := pass_size S low _ s t hc.1
      simp only [List.getLast_cons_cons]
      exact ih t hc.2 (by rw [z1, h1]) (by rw [z2, h2])
  obtain ⟨e1, e2⟩ := hlen tr s h3 hsx g2
  refine ⟨e1, e2, g4, by rw [← g1]; exact f1, s, r0, tr, h1, g1, h2, h3, rfl, h5, h6, k1, fun X R L hb hL i i0 i1 => ?_⟩
  have a1 := g5 X R (fun j j0 j1 => hb s (by simp) j j0 j1) i i0 i1
  have a2 := k2 X R L hb hL i i0 i1
  have e : valAt b i - A.valMul ((s :: tr).getLast (by simp)).x i - valAt ((s :: tr).getLast (by simp)).r i
      = (valAt b i - (A.valMul s.x i + valAt s.r i)) - ((A.valMul ((s :: tr).getLast (by simp)).x i + valAt ((s :: tr).getLast (by simp)).r i) - (A.valMul s.x i + valAt s.r i)) := by ring
  rw [e]
  exact le_trans (abs_sub _ _) (add_le_add a1 a2)

/-- **C129.**  CG that reports fewer than `max_iter` iterations: the sum of the squares of its residual is below the tolerance, up to rounding. -/
theorem C129_stop (S : Pcg F) (hM : S.M = none) (hdot : S.dot = Vec.inner) (low : F) (b x : List F) (w : PcgState F) (N : Int) (st : PcgState F)
    (h : S.multF low b x w = .ok (N, st)) (hN : N < S.maxIter) :
    ∃ r0 d, Vec.inner st.r st.r = .ok d ∧ Floats.lt d (S.tolF r0) = true ∧ (IsFin d → FinVec st.r ∧
      (1 - relErr F st.r.length) * (st.r.map (fun a => val a * val a)).sum ≤ val d + absErr F st.r.length ∧ (IsFin (S.tolF r0) → val d < val (S.tolF r0))) := by
  obtain ⟨lx, lb, s, r0, tr, h1, h2, h3, h4, h5, h6, h7⟩ := C129_passes S low b x w N st h
  obtain ⟨d, h8, h9⟩ := h7 (Or.inl hN)
  have hs : s.z = s.r := by
    unfold Pcg.startF at h1
    rw [bind_eq_ok] at h1
    obtain ⟨Ap, -, h1⟩ := h1
    rw [bind_eq_ok] at h1
    obtain ⟨r, -, h1⟩ := h1
    rw [bind_eq_ok] at h1
    obtain ⟨z, e, h1⟩ := h1
    obtain rfl := (Except.ok.inj h1).symm
    unfold Pcg.precond at e
    rw [hM] at e
    exact (Except.ok.inj e).symm
  have hz : ∀ (tr : List (PcgState F)) (s : PcgState F), (s :: tr).IsChain (S.Pass low (S.tolF r0)) → s.z = s.r →
      ((s :: tr).getLast (by simp)).z = ((s :: tr).getLast (by simp)).r := by
    intro tr
    induction tr with
    | nil => intro s _ h; exact h
    | cons t tr ih =>
      intro s hc _
      rw [List.isChain_cons_cons] at hc
      simp only [List.getLast_cons_cons]
      refine ih t hc.2 ?_
      obtain ⟨stop, hp⟩ := hc.1
      obtain ⟨pAp, rz, d, -, -, -, -, -, e, -, -⟩ := Pcg.stepF_ok hp
      unfold Pcg.precond at e
      rw [hM] at e
      exact (Except.ok.inj e).symm
  have e := hz tr s h3 hs
  rw [h4] at e
  rw [e, hdot] at h8
  refine ⟨r0, d, h8, h9, fun hd => ?_⟩
  unfold Vec.inner at h8
  rw [cassert_true rfl, ok_bind] at h8
  obtain rfl := (Except.ok.inj h8).symm
  have key := addUp_round (st.r.zip st.r)
  have ea : addUp ((st.r.zip st.r).map (fun p => p.1 * p.2)) = (st.r.zip st.r).foldl (fun s p => s + p.1 * p.2) 0 := by
    unfold addUp
    rw [List.foldl_map]
  rw [ea] at key
  obtain ⟨k1, k2⟩ := key hd
  have hsum : ∀ l : List F, ((l.zip l).map (fun p => val p.1 * val p.2)).sum = (l.map (fun a => val a * val a)).sum ∧
      ((l.zip l).map (fun p => |val p.1 * val p.2|)).sum = (l.map (fun a => val a * val a)).sum ∧ (l.zip l).length = l.length := by
    intro l
    induction l with
    | nil => simp
    | cons a l ih =>
      obtain ⟨i1, i2, i3⟩ := ih
      simp only [List.zip_cons_cons, List.map_cons, List.sum_cons, List.length_cons, i1, i2, i3, and_true, true_and]
      rw [abs_of_nonneg (mul_self_nonneg _)]
  obtain ⟨g1, g2, g3⟩ := hsum st.r
  rw [g1, g2, g3] at k2
  refine ⟨?_, ?_, fun ht => RoundLaws.lt_val _ _ hd ht h9⟩
  · intro i i0 i1
    obtain ⟨k, rfl⟩ : ∃ k : Nat, i = k := ⟨i.toNat, by omega⟩
    have hk : k < st.r.length := by omega
    have e1 : vecAt st.r (k : Int) = st.r[k] := by
      unfold vecAt
      simp [hk]
    rw [e1]
    refine (k1 (st.r[k], st.r[k]) ?_).1
    rw [List.mem_iff_getElem]
    exact ⟨k, by rw [g3]; exact hk, by simp⟩
  · have := (abs_le.mp k2).1
    nlinarith

theorem exists_le {α : Type} (l : List α) (f : α → ℝ) : ∃ X, ∀ a ∈ l, f a ≤ X := by
  induction l with
  | nil => exact ⟨0, by simp⟩
  | cons a l ih =>
    obtain ⟨X, hX⟩ := ih
    refine ⟨max (f a) X, fun c hc => ?_⟩
    rcases List.mem_cons.mp hc with rfl | hc
    · exact le_max_left _ _
    · exact (hX c hc).trans (le_max_right _ _)

theorem exists_vec_le {α : Type} (l : List α) (f : α → List F) : ∃ X, ∀ a ∈ l, ∀ i : Int, |valAt (f a) i| ≤ X := by
  obtain ⟨X, hX⟩ := exists_le (l.flatMap fun a => 0 :: f a) (fun c => |val c|)
  refine ⟨X, fun a ha i => hX (vecAt (f a) i) ?_⟩
  rw [List.mem_flatMap]
  refine ⟨a, ha, ?_⟩
  unfold vecAt
  split
  · rw [List.getD_eq_getElem?_getD]
    cases e : (f a)[i.toNat]? with
    | none => simp
    | some c => simpa using Or.inr (List.mem_of_getElem? e)
  · simp

theorem StepLe.mono (S : Pcg F) {L L' : ℝ} (h : L ≤ L') (s t : PcgState F) (hs : S.StepLe L s t) : S.StepLe L' s t :=
  fun rz pAp h1 h2 => (hs rz pAp h1 h2).trans h

/-- **C129.**  Bounds as in `C129_gap` exist for every run. -/
theorem C129_bounds (S : Pcg F) (l : List (PcgState F)) :
    ∃ X R L, (∀ t ∈ l, ∀ i : Int, |valAt t.x i| ≤ X ∧ |valAt t.r i| ≤ R) ∧ l.IsChain (S.StepLe L) := by
  obtain ⟨X, hX⟩ := exists_vec_le l (·.x)
  obtain ⟨R, hR⟩ := exists_vec_le l (·.r)
  have hL : ∃ L, l.IsChain (S.StepLe L) := by
    clear hX hR
    induction l with
    | nil => exact ⟨0, .nil⟩
    | cons s l ih =>
      obtain ⟨L, hL⟩ := ih
      cases l with
      | nil => exact ⟨0, .singleton s⟩
      | cons t l =>
        have h1 : ∃ L', S.StepLe L' s t := by
          unfold Pcg.StepLe
          cases h1 : S.dot s.r s.z with
          | error e => exact ⟨0, fun rz pAp h => by cases h⟩
          | ok rz =>
            cases h2 : S.dot s.p t.Ap with
            | error e => exact ⟨0, fun rz pAp _ h => by cases h⟩
            | ok pAp =>
              refine ⟨|val (rz / pAp)|, fun rz' pAp' e1 e2 => ?_⟩
              obtain rfl := Except.ok.inj e1
              obtain rfl := Except.ok.inj e2
              exact le_refl _
        obtain ⟨L', h1⟩ := h1
        refine ⟨max L L', List.isChain_cons_cons.mpr ⟨StepLe.mono S (le_max_right _ _) _ _ h1, hL.imp (StepLe.mono S (le_max_left _ _))⟩⟩
  obtain ⟨L, hL⟩ := hL
  exact ⟨X, R, L, fun t ht i => ⟨hX t ht i, hR t ht i⟩, hL⟩

end

/-! ## Concrete cases -/

theorem finVec_lift (x : List ℚ) : FinVec (lift x) := by
  intro i i0 i1
  rw [Ext.isFin_iff]
  unfold vecAt lift
  rw [if_pos i0, List.getD_eq_getElem?_getD, List.getElem?_map]
  have hi : i.toNat < x.length := by
    unfold lift at i1
    rw [List.length_map] at i1
    omega
  exact ⟨x[i.toNat], by simp [hi]⟩

theorem fltPcg_run : (fltPcg 10 (1 / 1000)).multF (.fin (-10 ^ 12)) (lift [(3 : ℚ), 4]) (lift [0, 0]) (PcgState.lift ⟨[], [], [], [], [], 0⟩)
    = .ok (2, PcgState.lift ⟨[2 / 3, 5 / 3], [0, 0], [-1925 / 5476, 875 / 2738], [0, 0], [-525 / 1369, 1575 / 5476], 3⟩) :=
  C128_pcg_exact exactPcg _ exactPcg_lifts _ _ _ _ _ (by decide +kernel)

/-- Without rounding the gap is nothing. -/
example : ∀ i : Int, 0 ≤ i → i < 2 → valAt (lift [(3 : ℚ), 4]) i - fltMat.valMul (lift [2 / 3, 5 / 3]) i - valAt (lift [(0 : ℚ), 0]) i = 0 := by
  intro i i0 i1
  obtain ⟨-, -, -, -, s, r0, tr, -, -, -, -, -, -, -, -, hgap⟩ := C129_gap (F := Ext ℚ) (by show (0 : ℝ) ≤ 1 / 2; norm_num) (fltPcg 10 (1 / 1000)) fltMat
    (by decide) 2 rfl rfl _ _ _ _ _ _ fltPcg_run (finVec_lift _) (finVec_lift _)
  obtain ⟨X, R, L, h1, h2⟩ := C129_bounds (fltPcg 10 (1 / 1000)) (s :: tr)
  have : |valAt (lift [(3 : ℚ), 4]) i - fltMat.valMul (lift [2 / 3, 5 / 3]) i - valAt (lift [(0 : ℚ), 0]) i| ≤ _ :=
    hgap X R L (fun t ht i _ _ => h1 t ht i) h2 i i0 i1
  have hu : RoundLaws.u (Ext ℚ) = 0 := rfl
  have he : RoundLaws.eta (Ext ℚ) = 0 := rfl
  simpa [gapStart, gapStep, relErr, absErr, hu, he, sub_eq_zero] using this

example := C129_stop (F := Ext ℚ) (fltPcg 10 (1 / 1000)) rfl rfl _ _ _ _ _ _ fltPcg_run (by decide)

theorem finVec_dbl (x : List Dbl) (h : (x.all fun a => decide (a.ext = .fin a.toRat)) = true) : FinVec x := by
  intro i i0 i1
  rw [Dbl.isFin_iff]
  unfold vecAt
  rw [if_pos i0, List.getD_eq_getElem?_getD, List.getElem?_eq_getElem (by omega)]
  rw [List.all_eq_true] at h
  exact ⟨_, of_decide_eq_true (h _ (List.getElem_mem (by omega)))⟩

theorem half_dbl : RoundLaws.u Dbl ≤ 1 / 2 := by
  show ((1 : ℝ) / 2) ^ 53 ≤ 1 / 2
  norm_num

/-- CG for a matrix of `double`s, with the given absolute tolerance. -/
def dblPcg (A : Csr Dbl) (absTol : ℚ) : Pcg Dbl := ⟨A.toOp, none, 10, 0, .of absTol, Vec.inner⟩

/-- An unused state. -/
def dblState : PcgState Dbl := ⟨[], [], [], [], [], 0⟩

/-- `[2 1; 1 2]` -/
def dblMat : Csr Dbl := ⟨2, 2, [0, 2, 4], [0, 1, 0, 1], [.of 2, .of 1, .of 1, .of 2]⟩

/-- What CG leaves for `[2 1; 1 2] x = (3, 4)`. -/
def dblRun : Option (Int × PcgState Dbl) := ((dblPcg dblMat (1 / 10 ^ 6)).multF (.of (-10 ^ 12)) [.of 3, .of 4] [.of 0, .of 0] dblState).toOption

theorem dblRun_some : ∃ st, (dblPcg dblMat (1 / 10 ^ 6)).multF (.of (-10 ^ 12)) [.of 3, .of 4] [.of 0, .of 0] dblState = .ok (2, st) ∧
    st.x.map (·.ext) = [.fin (750599937895083 / 2 ^ 50), .fin (3752999689475413 / 2 ^ 51)] ∧ st.r.map (·.ext) = [.fin (-1 / 2 ^ 52), .fin (-3 / 2 ^ 54)] := by
  have h : dblRun.map (fun p => (p.1, p.2.x.map (·.ext), p.2.r.map (·.ext)))
      = some (2, [.fin (750599937895083 / 2 ^ 50), .fin (3752999689475413 / 2 ^ 51)], [.fin (-1 / 2 ^ 52), .fin (-3 / 2 ^ 54)]) := by decide +kernel
  unfold dblRun at h
  cases e : (dblPcg dblMat (1 / 10 ^ 6)).multF (.of (-10 ^ 12)) [.of 3, .of 4] [.of 0, .of 0] dblState with
  | error x => rw [e] at h; cases h
  | ok p =>
    rw [e] at h
    obtain ⟨N, st⟩ := p
    have h' : (N, st.x.map (·.ext), st.r.map (·.ext)) = _ := Option.some.inj h
    simp only [Prod.mk.injEq] at h'
    obtain ⟨rfl, h1, h2⟩ := h'
    exact ⟨st, rfl, h1, h2⟩

theorem finVec_exts (x : List Dbl) (l : List ℚ) (h : x.map (·.ext) = l.map .fin) : FinVec x := by
  intro i i0 i1
  rw [Dbl.isFin_iff]
  unfold vecAt
  rw [if_pos i0, List.getD_eq_getElem?_getD, List.getElem?_eq_getElem (by omega)]
  have hl : x.length = l.length := by simpa using congrArg List.length h
  have h1 : (x.map (·.ext))[i.toNat]? = (l.map Ext.fin)[i.toNat]? := by rw [h]
  rw [List.getElem?_map, List.getElem?_map, List.getElem?_eq_getElem (by omega), List.getElem?_eq_getElem (by omega)] at h1
  exact ⟨_, Option.some.inj h1⟩

/-- A run in double precision that meets the hypotheses; its residual is not zero. -/
example : ∃ st, (dblPcg dblMat (1 / 10 ^ 6)).multF (.of (-10 ^ 12)) [.of 3, .of 4] [.of 0, .of 0] dblState = .ok (2, st) ∧
    ∃ m : Nat, m ≤ 2 ∧ ∃ X R L, ∀ i : Int, 0 ≤ i → i < 2 →
      |valAt [Dbl.of 3, .of 4] i - dblMat.valMul st.x i - valAt st.r i| ≤ gapStart dblMat X R i + m * gapStep dblMat X R L i := by
  obtain ⟨st, h, hx, hr⟩ := dblRun_some
  obtain ⟨-, -, -, -, s, r0, tr, -, -, -, -, -, -, h6, -, hgap⟩ := C129_gap half_dbl _ dblMat (by decide +kernel) 2 rfl rfl _ _ _ _ _ _ h
    (finVec_exts _ [_, _] hx) (finVec_exts _ [_, _] hr)
  obtain ⟨X, R, L, h1, h2⟩ := C129_bounds (dblPcg dblMat (1 / 10 ^ 6)) (s :: tr)
  exact ⟨st, h, tr.length, by exact_mod_cast h6, X, R, L, fun i i0 i1 => hgap X R L (fun t ht i _ _ => h1 t ht i) h2 i i0 i1⟩

/-- **C129.**  In double precision the residual that CG tests can be exactly zero when the true one is above the tolerance: `3 x = 1`. -/
theorem C129_stop_false : ∃ (A : Csr Dbl) (S : Pcg Dbl) (b x : List Dbl) (N : Int) (st : PcgState Dbl), A.WF ∧ S.A = A.toOp ∧ S.M = none ∧ S.dot = Vec.inner ∧
    S.relTol = 0 ∧ S.multF (.of (-10 ^ 12)) b x dblState = .ok (N, st) ∧ N < S.maxIter ∧ FinVec st.x ∧ st.r = [0] ∧
    RoundLaws.val S.absTol < |valAt b 0 - A.valMul st.x 0| := by
  have hrun : ((dblPcg ⟨1, 1, [0, 1], [0], [.of 3]⟩ (1 / 10 ^ 20)).multF (.of (-10 ^ 12)) [.of 1] [.of 0] dblState).toOption.map (fun p => (p.1, p.2.x, p.2.r))
      = some (1, [.of (1 / 3)], [0]) := by decide +kernel
  cases e : (dblPcg ⟨1, 1, [0, 1], [0], [.of 3]⟩ (1 / 10 ^ 20)).multF (.of (-10 ^ 12)) [.of 1] [.of 0] dblState with
  | error x => rw [e] at hrun; cases hrun
  | ok p =>
    rw [e] at hrun
    obtain ⟨N, st⟩ := p
    have h' : (N, st.x, st.r) = _ := Option.some.inj hrun
    simp only [Prod.mk.injEq] at h'
    obtain ⟨rfl, h1, h2⟩ := h'
    refine ⟨⟨1, 1, [0, 1], [0], [.of 3]⟩, dblPcg ⟨1, 1, [0, 1], [0], [.of 3]⟩ (1 / 10 ^ 20), _, _, _, st, by decide +kernel, rfl, rfl, rfl, rfl, e, by decide, ?_, h2, ?_⟩
    · rw [h1]
      exact finVec_dbl _ (by decide +kernel)
    · rw [h1]
      have k1 : ((⟨1, 1, [0, 1], [0], [.of 3]⟩ : Csr Dbl).row 0) = [(0, .of 3)] := by decide +kernel
      have e1 : (⟨1, 1, [0, 1], [0], [.of 3]⟩ : Csr Dbl).valMul [.of (1 / 3)] 0 = RoundLaws.val (Dbl.of 3) * RoundLaws.val (Dbl.of (1 / 3)) := by
        unfold Csr.valMul
        rw [k1]
        simp only [valAt, vecAt, List.map_cons, List.map_nil, List.sum_cons, List.sum_nil, add_zero]
        rfl
      rw [e1]
      have e2 : valAt [Dbl.of 1] 0 = RoundLaws.val (Dbl.of 1) := rfl
      rw [e2]
      have q1 : (Dbl.of 1).toRat = 1 := by decide +kernel
      have q2 : (Dbl.of 3).toRat = 3 := by decide +kernel
      have q3 : (Dbl.of (1 / 3)).toRat = 6004799503160661 / 2 ^ 54 := by decide +kernel
      have q4 : (Dbl.of (1 / 10 ^ 20)).toRat < 1 / 10 ^ 19 := by decide +kernel
      have v : ∀ a : Dbl, RoundLaws.val a = (a.toRat : ℝ) := fun _ => rfl
      have q5 : ((Dbl.of (1 / 10 ^ 20)).toRat : ℝ) < 1 / 10 ^ 19 := by
        have := (Rat.cast_lt (K := ℝ)).mpr q4
        simpa using this
      show RoundLaws.val (Dbl.of (1 / 10 ^ 20)) < _
      rw [v, v, v, v, q1, q2, q3]
      refine q5.trans_le ?_
      refine le_trans ?_ (le_abs_self _)
      norm_num

end Linalg
