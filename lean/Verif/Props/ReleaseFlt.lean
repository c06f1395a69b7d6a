import Verif.Model.ReleaseFlt
import Verif.Proof.Release
import Verif.Props.Floats

/-! # C138: division by a zero norm without assertions -/

namespace Linalg
open Cpp Floats

variable {F : Type} [Floats F]

theorem Rel.divVec_debug (v : List F) (val : F) : Rel.divVec .debug v val = Flt.divVec v val := rfl

theorem Refines.divVec (v : List F) (val : F) : Refines (Rel.divVec .debug v val) (Rel.divVec .release v val) :=
  (Refines.assert _).bind fun _ => Refines.refl _

theorem Minres.loopB_debug (S : Minres F) (tol : F) (fuel : Nat) (k : Int) (s : MinresState F) :
    Minres.loopB .debug S tol fuel k s = S.loopF tol fuel k s := by
  induction fuel generalizing k s with
  | zero => rfl
  | succ f ih =>
    unfold Minres.loopB Minres.loopF
    refine congrArg (fun g => Minres.stepB .debug S tol s >>= g) (funext fun t => ?_)
    rw [ih]

theorem Pminres.loopB_debug (S : Minres F) (M : Op F) (tol : F) (fuel : Nat) (k : Int) (s : PminresState F) :
    Pminres.loopB .debug S M tol fuel k s = Pminres.loopF S M tol fuel k s := by
  induction fuel generalizing k s with
  | zero => rfl
  | succ f ih =>
    unfold Pminres.loopB Pminres.loopF
    refine congrArg (fun g => Pminres.stepB .debug S M tol s >>= g) (funext fun t => ?_)
    rw [ih]

/-- **C138.**  With assertions the functions are those of the other models. -/
theorem C138_debug :
    (∀ (v : List F) (val : F), Rel.divVec .debug v val = Flt.divVec v val) ∧
    (∀ (sqrt : F → F) (v : List F), Rel.normalize .debug sqrt v = Flt.normalize sqrt v) ∧
    (∀ (S : Minres F) (b x : List F) (w : MinresState F), Minres.multB .debug S b x w = S.multF b x w) ∧
    (∀ (S : Minres F) (M : Op F) (b x : List F) (w : PminresState F), Pminres.multB .debug S M b x w = Pminres.multF S M b x w) := by
  refine ⟨fun _ _ => rfl, fun _ _ => rfl, fun S b x w => ?_, fun S M b x w => ?_⟩
  · unfold Minres.multB
    simp only [Minres.loopB_debug]
    rfl
  · unfold Pminres.multB
    simp only [Pminres.loopB_debug]
    rfl

/-- **C138.**  A run that passes the assertions gives the same result when they are compiled away. -/
theorem C138_same :
    (∀ (v : List F) (val : F), Refines (Flt.divVec v val) (Rel.divVec .release v val)) ∧
    (∀ (sqrt : F → F) (v : List F), Refines (Flt.normalize sqrt v) (Rel.normalize .release sqrt v)) ∧
    (∀ (S : Minres F) (b x : List F) (w : MinresState F), Refines (S.multF b x w) (Minres.multB .release S b x w)) ∧
    (∀ (S : Minres F) (M : Op F) (b x : List F) (w : PminresState F),
      Refines (Pminres.multF S M b x w) (Pminres.multB .release S M b x w)) := by
  refine ⟨Refines.divVec, fun sqrt v => (Refines.refl _).bind fun _ => Refines.divVec _ _, fun S b x w => ?_, fun S M b x w => ?_⟩
  · rw [← C138_debug.2.2.1 S b x w]
    refine (Refines.assert _).bind fun _ => (Refines.assert _).bind fun _ => (Refines.refl _).bind fun s => ?_
    generalize S.maxIter.toNat = fuel
    generalize (1 : Int) = k
    generalize Flt.stdMax (s.beta * S.relTol * S.relTol) (S.absTol * S.absTol) = tol
    induction fuel generalizing k s with
    | zero => exact Refines.refl _
    | succ f ih =>
      unfold Minres.loopB
      refine Refines.bind ((Refines.divVec _ _).bind fun _ => Refines.refl _) fun t => ?_
      split
      · exact Refines.refl _
      · exact ih _ _
  · rw [← C138_debug.2.2.2 S M b x w]
    refine (Refines.assert _).bind fun _ => (Refines.assert _).bind fun _ => (Refines.refl _).bind fun s => ?_
    generalize S.maxIter.toNat = fuel
    generalize (1 : Int) = k
    generalize Flt.stdMax (s.beta * S.relTol * S.relTol) (S.absTol * S.absTol) = tol
    induction fuel generalizing k s with
    | zero => exact Refines.refl _
    | succ f ih =>
      unfold Pminres.loopB
      refine Refines.bind ((Refines.divVec _ _).bind fun _ => (Refines.divVec _ _).bind fun _ => Refines.refl _) fun t => ?_
      split
      · exact Refines.refl _
      · exact ih _ _

theorem map_div_allNan [ZeroLaws F] {v : List F} {d : F} (hv : ∀ a ∈ v, IsZero a) (hd : IsZero d) : AllNan (v.map (fun u => u / d)) := by
  have e := eq_vecFn_vecAt v
  rw [e, map_vecFn]
  exact allNan_fn (fun i _ _ => ZeroLaws.div _ _ (isZero_vecAt hv i) hd)

/-- **C138.**  `vect /= 0` is an assertion failure with assertions; without them it always returns, and every zero of the vector has become NaN. -/
theorem C138_div [ZeroLaws F] (v : List F) (val : F) (h : IsZero val) :
    Rel.divVec .debug v val = .error .assertFail ∧
    ∃ y, Rel.divVec .release v val = .ok y ∧ y.length = v.length ∧
      ∀ i : Int, 0 ≤ i → i < v.length → vecAt y i = vecAt v i / val ∧ (IsZero (vecAt v i) → IsNan (vecAt y i)) := by
  refine ⟨?_, v.map (fun u => u / val), rfl, by simp, fun i i0 i1 => ?_⟩
  · unfold Rel.divVec Build.assert
    rw [cassert_false (by rw [show eq val 0 = true from h]; simp)]
    rfl
  · have e : vecAt (v.map (fun u => u / val)) i = vecAt v i / val := by
      have e := eq_vecFn_vecAt v
      conv_lhs => rw [e, map_vecFn]
      rw [vecAt_fn _ i0 i1]
    exact ⟨e, fun hz => by rw [e]; exact ZeroLaws.div _ _ hz h⟩

/-- **C138.**  `Normalize` of a vector of zeros: an assertion failure with assertions, and only NaN without. -/
theorem C138_normalize [ZeroLaws F] (sqrt : F → F) (hsq : ∀ a : F, IsZero a → IsZero (sqrt a)) (v : List F) (hv : ∀ a ∈ v, IsZero a) :
    Rel.normalize .debug sqrt v = .error .assertFail ∧
    ∃ y, Rel.normalize .release sqrt v = .ok y ∧ y.length = v.length ∧ AllNan y := by
  obtain ⟨d, e, hd⟩ := inner_zero rfl hv hv
  have e2 : Vec.l2Norm sqrt v = .ok (sqrt d) := by
    unfold Vec.l2Norm
    rw [e]
    rfl
  unfold Rel.normalize
  rw [e2, ok_bind, ok_bind]
  obtain ⟨h1, y, h2, h3, h4⟩ := C138_div v (sqrt d) (hsq d hd)
  exact ⟨h1, y, h2, h3, fun i i0 i1 => (h4 i i0 (by omega)).2 (isZero_vecAt hv i)⟩

/-! ## MINRES -/

theorem minres_stepB_nan [NanLaws F] (S : Minres F) (n : Nat) (hn : 1 ≤ n) (hA : S.A.Runs n) (hdot : S.dot = Vec.inner)
    (hsq : ∀ a : F, IsNan a → IsNan (S.sqrt a)) (tol : F) (s : MinresState F) (hs : s.Size n) (hx : s.x.length = n)
    (hv1 : SomeNan (s.v1.map (fun u => u / s.beta))) :
    ∃ t, Minres.stepB .release S tol s = .ok (false, t) ∧ t.Size n ∧ t.x.length = n ∧ AllNan t.x ∧ IsNan t.beta := by
  have hv1l : (s.v1.map (fun u => u / s.beta)).length = n := by simpa using hs.v1
  obtain ⟨-, q, -, -, hq, e1⟩ := hA.multResize _ s.q hv1l
  obtain ⟨al, e2, hal⟩ := SomeNan.inner hv1l hq (Or.inl hv1)
  have hv0 : AllNan (vecFn n (fun i => vecAt q i - s.beta * vecAt s.v0 i - al * vecAt (s.v1.map (fun u => u / s.beta)) i)) :=
    allNan_fn (fun i _ _ => NanLaws.sub_nan _ _ (Or.inr (NanLaws.mul_nan _ _ (Or.inl hal))))
  obtain ⟨d, e3, hd⟩ := SomeNan.self (hv0.some (length_vecFn n _) hn)
  have hbe := hsq d hd
  have hrho : IsNan (S.sqrt ((s.gamma2 * al - s.gamma * s.sigma2 * s.beta) * (s.gamma2 * al - s.gamma * s.sigma2 * s.beta) + S.sqrt d * S.sqrt d)) :=
    hsq _ (NanLaws.add_nan _ _ (Or.inr (NanLaws.mul_nan _ _ (Or.inl hbe))))
  unfold Minres.stepB Rel.divVec Build.assert
  simp only [ok_bind, e1, hdot, e2, hA.cols_eq, update3_fn _ hs.v0 hq hv1l, e3, update3_fn _ hs.w0 hv1l hs.w1]
  rw [update2_fn _ hx (by simp), ok_bind]
  refine ⟨_, congrArg (fun c => Except.ok (c, _)) (NanLaws.lt_nan _ _ (Or.inl (NanLaws.abs_nan _ (NanLaws.mul_nan _ _ (Or.inl
    (NanLaws.neg_nan _ (NanLaws.div_nan _ _ (Or.inl hbe)))))))), ⟨by simp, hs.w1, by simp, hv1l⟩, by simp, ?_, hbe⟩
  refine allNan_fn (fun i _ _ => NanLaws.add_nan _ _ (Or.inr (NanLaws.mul_nan _ _ (Or.inl (NanLaws.mul_nan _ _ (Or.inl ?_))))))
  exact NanLaws.div_nan _ _ (Or.inr hrho)

theorem map_div_nan [NanLaws F] {n : Nat} (hn : 1 ≤ n) {v : List F} (hv : v.length = n) {d : F} (hd : IsNan d) : SomeNan (v.map (fun u => u / d)) := by
  have e := eq_vecFn_vecAt v
  rw [hv] at e
  rw [e, map_vecFn]
  exact AllNan.some (allNan_fn (fun i _ _ => NanLaws.div_nan _ _ (Or.inr hd))) (by simp) hn

/-- **C138.**  Whenever a pass of the loop of MINRES begins with a norm `beta` and a vector `v1` such that `v1 / beta` has a NaN - a zero `beta` and a zero element of
`v1` - the remaining passes are all made and only NaN is left of `x`. -/
theorem C138_minres_loop [NanLaws F] (S : Minres F) (n : Nat) (hn : 1 ≤ n) (hA : S.A.Runs n) (hdot : S.dot = Vec.inner)
    (hsq : ∀ a : F, IsNan a → IsNan (S.sqrt a)) (tol : F) (fuel : Nat) (k : Int) (s : MinresState F) (hs : s.Size n) (hx : s.x.length = n)
    (hv1 : SomeNan (s.v1.map (fun u => u / s.beta))) (hxn : 1 ≤ fuel ∨ AllNan s.x) :
    ∃ t, Minres.loopB .release S tol fuel k s = .ok (k + fuel, t) ∧ t.x.length = n ∧ AllNan t.x := by
  induction fuel generalizing k s with
  | zero =>
    obtain h | h := hxn
    · omega
    · exact ⟨s, by simp [Minres.loopB], hx, h⟩
  | succ f ih =>
    obtain ⟨t, e, h1, h2, h3, h4⟩ := minres_stepB_nan S n hn hA hdot hsq tol s hs hx hv1
    unfold Minres.loopB
    rw [e, ok_bind]
    simp only [Bool.false_eq_true, if_false]
    obtain ⟨u, e', h5, h6⟩ := ih (k + 1) (Minres.swapVecs t) ⟨h1.w1, h1.w0, h1.v1, h1.v0⟩ h2 (map_div_nan hn h1.v0 h4) (Or.inr h3)
    exact ⟨u, by rw [e']; congr 2; push_cast; omega, h5, h6⟩

/-- **C138.**  MINRES started at a solution (every element of the residual is zero), for example with `b = 0` and `x = 0`: with assertions it fails in the first pass;
without them it makes `max_iter` passes and every element of the solution is replaced by NaN.  No tolerance prevents it. -/
theorem C138_minres_solved [NanLaws F] [ZeroLaws F] (S : Minres F) (n : Nat) (hn : 1 ≤ n) (hA : S.A.Runs n) (hdot : S.dot = Vec.inner)
    (hsq : ∀ a : F, IsNan a → IsNan (S.sqrt a)) (hs0 : ∀ a : F, IsZero a → IsZero (S.sqrt a)) (b x : List F) (hb : b.length = n) (hx : x.length = n)
    (w : MinresState F) (hw : w.Size n) (hm : 1 ≤ S.maxIter)
    (hr : ∀ y z, S.A.mult x y = .ok z → ∀ i : Int, 0 ≤ i → i < n → IsZero (vecAt b i - vecAt z i)) :
    Minres.multB .debug S b x w = .error .assertFail ∧
    ∃ st, Minres.multB .release S b x w = .ok (S.maxIter + 1, st) ∧ st.x.length = n ∧ AllNan st.x := by
  obtain ⟨y', q, hy', e1, hq, e2⟩ := hA.multResize x w.q hx
  have hr0 := hr y' q e1
  set r := vecFn n (fun i => vecAt b i - vecAt q i) with hrdef
  have hrl : r.length = n := by simp [hrdef]
  have hrz : ∀ a ∈ r, IsZero a := by
    intro a ha
    obtain ⟨i, i0, i1, rfl⟩ := mem_fn ha
    exact hr0 i i0 i1
  obtain ⟨d, e3, hd⟩ := inner_zero (show r.length = r.length from rfl) hrz hrz
  have hbe := hs0 d hd
  have hst : S.startF b x w = .ok ⟨x, List.replicate w.w0.length 0, List.replicate w.w1.length 0, List.replicate w.v0.length 0, r, q, S.sqrt d,
      S.sqrt d, 1, 1, 0, 0, 1⟩ := by
    unfold Minres.startF
    simp only [e2, ok_bind, update_fn _ hb hq, ← hrdef, hdot, e3]
  constructor
  · unfold Minres.multB Build.assert
    simp only [cassert_true (show (x.length : Int) = S.A.rows by rw [hA.rows_eq]; exact_mod_cast hx),
      cassert_true (show (b.length : Int) = S.A.rows by rw [hA.rows_eq]; exact_mod_cast hb), ok_bind, hst]
    obtain ⟨f, hf⟩ : ∃ f, S.maxIter.toNat = f + 1 := ⟨S.maxIter.toNat - 1, by omega⟩
    rw [hf]
    unfold Minres.loopB Minres.stepB
    simp only [(C138_div r (S.sqrt d) hbe).1]
    rfl
  · unfold Minres.multB Build.assert
    simp only [ok_bind, hst]
    obtain ⟨t, e4, h1, h2⟩ := C138_minres_loop S n hn hA hdot hsq (Flt.stdMax (S.sqrt d * S.relTol * S.relTol) (S.absTol * S.absTol)) S.maxIter.toNat 1
      ⟨x, List.replicate w.w0.length 0, List.replicate w.w1.length 0, List.replicate w.v0.length 0, r, q, S.sqrt d,
        S.sqrt d, 1, 1, 0, 0, 1⟩ ⟨by simpa using hw.w0, by simpa using hw.w1, by simpa using hw.v0, hrl⟩ hx
      ((map_div_allNan hrz hbe).some (by simpa using hrl) hn) (Or.inl (by omega))
    exact ⟨t, by rw [e4]; congr 2; omega, h1, h2⟩

/-! ## PMINRES -/

theorem pminres_stepB_nan [NanLaws F] (S : Minres F) (M : Op F) (n : Nat) (hn : 1 ≤ n) (hA : S.A.Runs n) (hM : M.Runs n) (hdot : S.dot = Vec.inner)
    (hsq : ∀ a : F, IsNan a → IsNan (S.sqrt a)) (tol : F) (s : PminresState F) (hs : s.Size n) (hx : s.x.length = n)
    (hu1 : SomeNan (s.u1.map (fun u => u / s.beta))) :
    ∃ t, Pminres.stepB .release S M tol s = .ok (false, t) ∧ t.Size n ∧ t.x.length = n ∧ AllNan t.x ∧ IsNan t.beta := by
  have hv1l : (s.v1.map (fun u => u / s.beta)).length = n := by simpa using hs.v1
  have hu1l : (s.u1.map (fun u => u / s.beta)).length = n := by simpa using hs.u1
  obtain ⟨-, q, -, -, hq, e1⟩ := hA.multResize _ s.q hu1l
  obtain ⟨al, e2, hal⟩ := SomeNan.inner hu1l hq (Or.inl hu1)
  have hv0 : AllNan (vecFn n (fun i => vecAt q i - s.beta * vecAt s.v0 i - al * vecAt (s.v1.map (fun u => u / s.beta)) i)) :=
    allNan_fn (fun i _ _ => NanLaws.sub_nan _ _ (Or.inr (NanLaws.mul_nan _ _ (Or.inl hal))))
  obtain ⟨-, q', -, -, hq', e1'⟩ := hM.multResize
    (vecFn n (fun i => vecAt q i - s.beta * vecAt s.v0 i - al * vecAt (s.v1.map (fun u => u / s.beta)) i)) q (by simp)
  obtain ⟨d, e3, hd⟩ := SomeNan.inner (by simp) hq' (Or.inl (hv0.some (by simp) hn))
  have hbe := hsq d hd
  have hrho : IsNan (S.sqrt ((s.gamma2 * al - s.gamma * s.sigma2 * s.beta) * (s.gamma2 * al - s.gamma * s.sigma2 * s.beta) + S.sqrt d * S.sqrt d)) :=
    hsq _ (NanLaws.add_nan _ _ (Or.inr (NanLaws.mul_nan _ _ (Or.inl hbe))))
  unfold Pminres.stepB Rel.divVec Build.assert
  simp only [ok_bind, e1, hdot, e2, hA.cols_eq, update3_fn _ hs.v0 hq hv1l, e1', e3, update3_fn _ hs.w0 hu1l hs.w1]
  rw [update2_fn _ hx (by simp), ok_bind]
  refine ⟨_, congrArg (fun c => Except.ok (c, _)) (NanLaws.lt_nan _ _ (Or.inl (NanLaws.abs_nan _ (NanLaws.mul_nan _ _ (Or.inl
    (NanLaws.neg_nan _ (NanLaws.div_nan _ _ (Or.inl hbe)))))))), ⟨by simp, hs.w1, by simp, hv1l, hu1l, hq'⟩, by simp, ?_, hbe⟩
  refine allNan_fn (fun i _ _ => NanLaws.add_nan _ _ (Or.inr (NanLaws.mul_nan _ _ (Or.inl (NanLaws.mul_nan _ _ (Or.inl ?_))))))
  exact NanLaws.div_nan _ _ (Or.inr hrho)

/-- **C138.**  PMINRES likewise, where the preconditioned vector `u1` is divided by `beta`. -/
theorem C138_pminres_loop [NanLaws F] (S : Minres F) (M : Op F) (n : Nat) (hn : 1 ≤ n) (hA : S.A.Runs n) (hM : M.Runs n) (hdot : S.dot = Vec.inner)
    (hsq : ∀ a : F, IsNan a → IsNan (S.sqrt a)) (tol : F) (fuel : Nat) (k : Int) (s : PminresState F) (hs : s.Size n) (hx : s.x.length = n)
    (hu1 : SomeNan (s.u1.map (fun u => u / s.beta))) (hxn : 1 ≤ fuel ∨ AllNan s.x) :
    ∃ t, Pminres.loopB .release S M tol fuel k s = .ok (k + fuel, t) ∧ t.x.length = n ∧ AllNan t.x := by
  induction fuel generalizing k s with
  | zero =>
    obtain h | h := hxn
    · omega
    · exact ⟨s, by simp [Pminres.loopB], hx, h⟩
  | succ f ih =>
    obtain ⟨t, e, h1, h2, h3, h4⟩ := pminres_stepB_nan S M n hn hA hM hdot hsq tol s hs hx hu1
    unfold Pminres.loopB
    rw [e, ok_bind]
    simp only [Bool.false_eq_true, if_false]
    obtain ⟨u, e', h5, h6⟩ := ih (k + 1) (Pminres.swapVecs t) ⟨h1.w1, h1.w0, h1.v1, h1.v0, h1.q, h1.u1⟩ h2 (map_div_nan hn h1.q h4) (Or.inr h3)
    exact ⟨u, by rw [e']; congr 2; push_cast; omega, h5, h6⟩

/-- **C138.**  PMINRES started at a solution, with a preconditioner that takes zeros to zeros: the same. -/
theorem C138_pminres_solved [NanLaws F] [ZeroLaws F] (S : Minres F) (M : Op F) (n : Nat) (hn : 1 ≤ n) (hA : S.A.Runs n) (hM : M.Runs n)
    (hM0 : ∀ u y z : List F, u.length = n → (∀ a ∈ u, IsZero a) → M.mult u y = .ok z → ∀ a ∈ z, IsZero a) (hdot : S.dot = Vec.inner)
    (hsq : ∀ a : F, IsNan a → IsNan (S.sqrt a)) (hs0 : ∀ a : F, IsZero a → IsZero (S.sqrt a)) (b x : List F) (hb : b.length = n) (hx : x.length = n)
    (w : PminresState F) (hw : w.Size n) (hm : 1 ≤ S.maxIter)
    (hr : ∀ y z, S.A.mult x y = .ok z → ∀ i : Int, 0 ≤ i → i < n → IsZero (vecAt b i - vecAt z i)) :
    Pminres.multB .debug S M b x w = .error .assertFail ∧
    ∃ st, Pminres.multB .release S M b x w = .ok (S.maxIter + 1, st) ∧ st.x.length = n ∧ AllNan st.x := by
  obtain ⟨y', q, hy', e1, hq, e2⟩ := hA.multResize x w.q hx
  have hr0 := hr y' q e1
  set r := vecFn n (fun i => vecAt b i - vecAt q i) with hrdef
  have hrl : r.length = n := by simp [hrdef]
  have hrz : ∀ a ∈ r, IsZero a := by
    intro a ha
    obtain ⟨i, i0, i1, rfl⟩ := mem_fn ha
    exact hr0 i i0 i1
  obtain ⟨y2, u, hy2, e3, hu, e4⟩ := hM.multResize r w.u1 hrl
  have huz := hM0 r y2 u hrl hrz e3
  obtain ⟨d, e5, hd⟩ := inner_zero (show r.length = u.length by omega) huz hrz
  have hbe := hs0 d hd
  have hst : Pminres.startF S M b x w = .ok ⟨x, List.replicate w.w0.length 0, List.replicate w.w1.length 0, List.replicate w.v0.length 0, r, u, q,
      S.sqrt d, S.sqrt d, 1, 1, 0, 0, 1⟩ := by
    unfold Pminres.startF
    simp only [e2, ok_bind, update_fn _ hb hq, ← hrdef, e4, hdot, e5]
  constructor
  · unfold Pminres.multB Build.assert
    simp only [cassert_true (show (x.length : Int) = S.A.cols by rw [hA.cols_eq]; exact_mod_cast hx),
      cassert_true (show (b.length : Int) = S.A.rows by rw [hA.rows_eq]; exact_mod_cast hb), ok_bind, hst]
    obtain ⟨f, hf⟩ : ∃ f, S.maxIter.toNat = f + 1 := ⟨S.maxIter.toNat - 1, by omega⟩
    rw [hf]
    unfold Pminres.loopB Pminres.stepB
    simp only [(C138_div r (S.sqrt d) hbe).1]
    rfl
  · unfold Pminres.multB Build.assert
    simp only [ok_bind, hst]
    obtain ⟨t, e6, h1, h2⟩ := C138_pminres_loop S M n hn hA hM hdot hsq (Flt.stdMax (S.sqrt d * S.relTol * S.relTol) (S.absTol * S.absTol)) S.maxIter.toNat 1
      ⟨x, List.replicate w.w0.length 0, List.replicate w.w1.length 0, List.replicate w.v0.length 0, r, u, q, S.sqrt d,
        S.sqrt d, 1, 1, 0, 0, 1⟩ ⟨by simpa using hw.w0, by simpa using hw.w1, by simpa using hw.v0, hrl, hu, hq⟩ hx
      ((map_div_allNan huz hbe).some (by simpa using hu) hn) (Or.inl (by omega))
    exact ⟨t, by rw [e6]; congr 2; omega, h1, h2⟩

/-! ## Concrete cases -/

/-- MINRES for the matrix `[[2, 1], [1, 2]]` with the given absolute tolerance. -/
def relMinres (absTol : ℚ) : Minres (Ext ℚ) := ⟨fltMat.toOp, 5, .fin 0, .fin absTol, fltSqrt, Vec.inner⟩

def relState : MinresState (Ext ℚ) := ⟨[], [.nan, .nan], [.nan, .nan], [.nan, .nan], [.nan, .nan], [], .nan, .nan, .nan, .nan, .nan, .nan, 0⟩

theorem fltMat_zero (x y z : List (Ext ℚ)) (hx : ∀ a ∈ x, IsZero a) (e : fltMat.mult x y = .ok z) : ∀ a ∈ z, IsZero a :=
  C128_csr_zero fltMat (by decide) (by
    intro a ha
    rw [Ext.isFin_iff]
    simp only [fltMat, List.mem_cons, List.not_mem_nil, or_false] at ha
    obtain rfl | rfl | rfl | rfl := ha <;> exact ⟨_, rfl⟩) x y z hx e

theorem fltSqrt_nan (a : Ext ℚ) (h : IsNan a) : IsNan (fltSqrt a) := by rw [Ext.isNan_iff] at *; subst h; rfl
theorem fltSqrt_zero (a : Ext ℚ) (h : IsZero a) : IsZero (fltSqrt a) := by rw [Ext.isZero_iff] at *; subst h; decide +kernel

/-- `A x = 0` from the guess zero, with the tolerance one half. -/
example : Minres.multB .debug (relMinres (1 / 2)) [.fin 0, .fin 0] [.fin 0, .fin 0] relState = .error .assertFail ∧
    ∃ st, Minres.multB .release (relMinres (1 / 2)) [.fin 0, .fin 0] [.fin 0, .fin 0] relState = .ok (6, st) ∧ st.x.length = 2 ∧ AllNan st.x := by
  refine C138_minres_solved (relMinres (1 / 2)) 2 (by decide) (fltMat.runs (by decide) 2 rfl rfl) rfl fltSqrt_nan fltSqrt_zero _ _ rfl rfl _
    ⟨rfl, rfl, rfl, rfl⟩ (by decide) ?_
  intro y z e i i0 i1
  have hz := isZero_vecAt (fltMat_zero [.fin 0, .fin 0] y z (fun a ha => by
    rw [Ext.isZero_iff]
    simpa using ha) e) i
  rw [Ext.isZero_iff] at *
  rw [hz]
  have hi : i = 0 ∨ i = 1 := by omega
  obtain rfl | rfl := hi <;> decide +kernel

/-- The same run, and one from the solution `(1, 1)` of `A x = (3, 3)`. -/
example : (Minres.multB .release (relMinres (1 / 2)) [.fin 0, .fin 0] [.fin 0, .fin 0] relState).map (fun t => (t.1, t.2.x)) = .ok (6, [.nan, .nan]) ∧
    (Minres.multB .release (relMinres (1 / 2)) [.fin 3, .fin 3] [.fin 1, .fin 1] relState).map (fun t => (t.1, t.2.x)) = .ok (6, [.nan, .nan]) := by
  decide +kernel

example : Rel.normalize .debug fltSqrt [.fin 0, .fin 0] = .error .assertFail ∧
    Rel.normalize .release fltSqrt [.fin 0, .fin 0] = .ok [.nan, .nan] ∧
    Rel.normalize .release fltSqrt [.fin 0, .fin 1] = .ok [.fin 0, .fin 1] := by decide +kernel

example : Rel.divVec .release [.fin 0, .fin 1, .fin (-2)] (.fin 0 : Ext ℚ) = .ok [.nan, .inf false, .inf true] := by decide +kernel

/-- PMINRES with the matrix itself as preconditioner. -/
example : Pminres.multB .debug (relMinres (1 / 2)) fltMat.toOp [.fin 0, .fin 0] [.fin 0, .fin 0]
      ⟨[], [.nan, .nan], [.nan, .nan], [.nan, .nan], [.nan, .nan], [.nan, .nan], [.nan, .nan], .nan, .nan, .nan, .nan, .nan, .nan, 0⟩ = .error .assertFail ∧
    ∃ st, Pminres.multB .release (relMinres (1 / 2)) fltMat.toOp [.fin 0, .fin 0] [.fin 0, .fin 0]
      ⟨[], [.nan, .nan], [.nan, .nan], [.nan, .nan], [.nan, .nan], [.nan, .nan], [.nan, .nan], .nan, .nan, .nan, .nan, .nan, .nan, 0⟩ = .ok (6, st) ∧
      st.x.length = 2 ∧ AllNan st.x := by
  refine C138_pminres_solved (relMinres (1 / 2)) fltMat.toOp 2 (by decide) (fltMat.runs (by decide) 2 rfl rfl) (fltMat.runs (by decide) 2 rfl rfl)
    (fun u y z _ hu e => fltMat_zero u y z hu e) rfl fltSqrt_nan fltSqrt_zero _ _ rfl rfl _ ⟨rfl, rfl, rfl, rfl, rfl, rfl⟩ (by decide) ?_
  intro y z e i i0 i1
  have hz := isZero_vecAt (fltMat_zero [.fin 0, .fin 0] y z (fun a ha => by
    rw [Ext.isZero_iff]
    simpa using ha) e) i
  rw [Ext.isZero_iff] at *
  rw [hz]
  have hi : i = 0 ∨ i = 1 := by omega
  obtain rfl | rfl := hi <;> decide +kernel

/-- MINRES for `1 x = 1`. -/
def relOne (absTol : ℚ) : Minres (Ext ℚ) := ⟨(⟨1, 1, [0, 1], [0], [.fin 1]⟩ : Csr (Ext ℚ)).toOp, 5, .fin 0, .fin absTol, fltSqrt, Vec.inner⟩

/-- **C138.**  The first pass finds the solution and `beta` becomes zero.  With a positive tolerance both builds return it; with the tolerance zero the build with
assertions fails in the second pass and the build without them returns NaN. -/
theorem C138_breakdown :
    ((relOne (1 / 2)).multF [.fin 1] [.fin 0] ⟨[], [.nan], [.nan], [.nan], [.nan], [], .nan, .nan, .nan, .nan, .nan, .nan, 0⟩).map (fun t => (t.1, t.2.x))
      = .ok (1, [.fin 1]) ∧
    (Minres.multB .release (relOne (1 / 2)) [.fin 1] [.fin 0] ⟨[], [.nan], [.nan], [.nan], [.nan], [], .nan, .nan, .nan, .nan, .nan, .nan, 0⟩).map
      (fun t => (t.1, t.2.x)) = .ok (1, [.fin 1]) ∧
    (relOne 0).multF [.fin 1] [.fin 0] ⟨[], [.nan], [.nan], [.nan], [.nan], [], .nan, .nan, .nan, .nan, .nan, .nan, 0⟩ = .error .assertFail ∧
    (Minres.multB .release (relOne 0) [.fin 1] [.fin 0] ⟨[], [.nan], [.nan], [.nan], [.nan], [], .nan, .nan, .nan, .nan, .nan, .nan, 0⟩).map
      (fun t => (t.1, t.2.x)) = .ok (6, [.nan]) := by
  refine ⟨?_, ?_, ?_, ?_⟩ <;> decide +kernel

end Linalg
