import Verif.Props.Floats

/-!
# C128: the exact models inside the floating-point models

Where the models of the other claims return a result, without a division by zero, the floating-point models of `Model/Floats.lean` return the same result
for `Ext K`, the ordered field `K` with infinities and NaN.
-/

namespace Linalg
open Cpp Floats

variable {σ τ γ δ : Type}

/-- If the first returns a result, so does the second, and the two are related. -/
def Follows (R : σ → τ → Prop) (a : Res σ) (b : Res τ) : Prop := ∀ s, a = .ok s → ∃ t, b = .ok t ∧ R s t

theorem Follows.ok {R : σ → τ → Prop} {s : σ} {t : τ} (h : R s t) : Follows R (.ok s) (.ok t) := by
  intro s' e
  obtain rfl : s = s' := by simpa using e
  exact ⟨t, rfl, h⟩

theorem Follows.bind {R : σ → τ → Prop} {Q : γ → δ → Prop} {a : Res σ} {b : Res τ} {f : σ → Res γ} {g : τ → Res δ} (h : Follows R a b)
    (hf : ∀ s t, R s t → Follows Q (f s) (g t)) : Follows Q (a >>= f) (b >>= g) := by
  intro u e
  rw [bind_eq_ok] at e
  obtain ⟨s, e1, e2⟩ := e
  obtain ⟨t, e3, hR⟩ := h s e1
  obtain ⟨v, e4, hQ⟩ := hf s t hR u e2
  exact ⟨v, by rw [e3, ok_bind, e4], hQ⟩

theorem Follows.skip {Q : γ → δ → Prop} {a : Res σ} {f : σ → Res γ} {b : Res δ} (hf : ∀ s, a = .ok s → Follows Q (f s) b) : Follows Q (a >>= f) b := by
  intro u e
  rw [bind_eq_ok] at e
  obtain ⟨s, e1, e2⟩ := e
  exact hf s e1 u e2

theorem Follows.forUp {R : σ → τ → Prop} {f : Int → σ → Res σ} {g : Int → τ → Res τ} {lo hi : Int} {s : σ} {t : τ} (h : R s t)
    (hf : ∀ j s t, R s t → Follows R (f j s) (g j t)) : Follows R (Cpp.forUp lo hi s f) (Cpp.forUp lo hi t g) := by
  unfold Cpp.forUp
  generalize (hi - lo).toNat = n
  induction n generalizing lo s t with
  | zero => exact Follows.ok h
  | succ n ih =>
    unfold forN
    exact (hf lo s t h).bind (fun s' t' h' => ih h')

variable {K : Type} [Field K] [LinearOrder K]

/-- The vector of the same numbers. -/
def lift (x : List K) : List (Ext K) := x.map .fin

theorem length_lift (x : List K) : (lift x).length = x.length := by simp [lift]

theorem follows_vrd (x : List K) (i : Int) : Follows (fun a b => b = Ext.fin a) (vrd x i) (vrd (lift x) i) := by
  unfold vrd
  rw [length_lift]
  refine Follows.bind (R := fun _ _ => True) (fun u e => ⟨u, e, trivial⟩) (fun _ _ _ => ?_)
  intro a e
  refine ⟨.fin a, ?_, rfl⟩
  unfold rd at *
  split at e
  · next h =>
    rw [if_pos h]
    unfold lift
    rw [List.getElem?_map]
    cases hx : x[i.toNat]? with
    | none => rw [hx] at e; cases e
    | some y =>
      rw [hx] at e
      obtain rfl : y = a := by simpa using e
      rfl
  · cases e

theorem follows_vwr (x : List K) (i : Int) (a : K) : Follows (fun z z' => z' = lift z) (vwr x i a) (vwr (lift x) i (.fin a)) := by
  unfold vwr
  rw [length_lift]
  refine Follows.bind (R := fun _ _ => True) (fun u e => ⟨u, e, trivial⟩) (fun _ _ _ => ?_)
  intro z e
  refine ⟨lift z, ?_, rfl⟩
  unfold wr at *
  rw [length_lift]
  split at e
  · next h =>
    rw [if_pos h]
    obtain rfl : x.set i.toNat a = z := by simpa using e
    unfold lift
    rw [List.map_set]
  · cases e

theorem follows_update {f : K → K → K} {g : Ext K → Ext K → Ext K} (h : ∀ a b, g (.fin a) (.fin b) = .fin (f a b)) (x y : List K) :
    Follows (fun z z' => z' = lift z) (Vec.update f x y) (Vec.update g (lift x) (lift y)) := by
  unfold Vec.update
  simp only [length_lift]
  refine Follows.bind (R := fun _ _ => True) (fun u e => ⟨u, e, trivial⟩) (fun _ _ _ => ?_)
  refine Follows.forUp rfl (fun j s t e => ?_)
  subst e
  refine (follows_vrd y j).bind (fun b b' hb => (follows_vrd s j).bind (fun a a' ha => ?_))
  subst hb ha
  rw [h]
  exact follows_vwr s j _

theorem follows_update2 {f : K → K → K} {g : Ext K → Ext K → Ext K} (h : ∀ a b, g (.fin a) (.fin b) = .fin (f a b)) (size : Int) (x y : List K) :
    Follows (fun z z' => z' = lift z) (Vec.update2 size f x y) (Vec.update2 size g (lift x) (lift y)) := by
  unfold Vec.update2
  refine Follows.forUp rfl (fun j s t e => ?_)
  subst e
  refine (follows_vrd s j).bind (fun a a' ha => (follows_vrd y j).bind (fun b b' hb => ?_))
  subst hb ha
  rw [h]
  exact follows_vwr s j _

theorem follows_update3 {f : K → K → K → K} {g : Ext K → Ext K → Ext K → Ext K} (h : ∀ a b c, g (.fin a) (.fin b) (.fin c) = .fin (f a b c)) (size : Int)
    (x y z : List K) : Follows (fun z z' => z' = lift z) (Vec.update3 size f x y z) (Vec.update3 size g (lift x) (lift y) (lift z)) := by
  unfold Vec.update3
  refine Follows.forUp rfl (fun j s t e => ?_)
  subst e
  refine (follows_vrd y j).bind (fun b b' hb => (follows_vrd s j).bind (fun a a' ha => (follows_vrd z j).bind (fun c c' hc => ?_)))
  subst hb ha hc
  rw [h]
  exact follows_vwr s j _

/-- An operator on the extended numbers that agrees with one on the numbers. -/
structure Op.Lifts (A : Op K) (A' : Op (Ext K)) : Prop where
  rows_eq : A'.rows = A.rows
  cols_eq : A'.cols = A.cols
  mult_eq : ∀ x y : List K, Follows (fun z z' => z' = lift z) (A.mult x y) (A'.mult (lift x) (lift y))

theorem Op.Lifts.multResize {A : Op K} {A' : Op (Ext K)} (h : A.Lifts A') (x y : List K) :
    Follows (fun z z' => z' = lift z) (A.multResize x y) (A'.multResize (lift x) (lift y)) := by
  unfold Op.multResize
  rw [h.rows_eq]
  refine Follows.bind (R := fun z z' => z' = lift z) ?_ (fun y y' e => by subst e; exact h.mult_eq x y)
  intro z e
  refine ⟨lift z, ?_, rfl⟩
  unfold Vec.setSize at *
  rw [length_lift]
  split at e
  · next hn =>
    rw [if_pos hn]
    rw [bind_eq_ok] at e ⊢
    obtain ⟨u, e1, e2⟩ := e
    refine ⟨u, e1, ?_⟩
    obtain rfl : resize y A.rows.toNat 0 = z := by simpa using e2
    unfold lift resize
    rw [List.map_append, List.map_take, List.length_map, List.map_replicate]
    rfl
  · next hn =>
    rw [if_neg hn]
    obtain rfl : y = z := by simpa using e
    rfl

theorem fin_add (a b : K) : (Ext.fin a + Ext.fin b) = Ext.fin (a + b) := rfl
theorem fin_mul (a b : K) : (Ext.fin a * Ext.fin b) = Ext.fin (a * b) := rfl
theorem fin_neg (a : K) : (-Ext.fin a) = Ext.fin (-a) := rfl
theorem fin_sub (a b : K) : (Ext.fin a - Ext.fin b) = Ext.fin (a - b) := by
  rw [sub_eq_add_neg]
  rfl
theorem fin_div (a b : K) (h : b ≠ 0) : (Ext.fin a / Ext.fin b) = Ext.fin (a / b) := if_neg h
theorem fin_lt (a b : K) : lt (Ext.fin a) (Ext.fin b) = decide (a < b) := rfl
theorem fin_abs (a : K) : Floats.abs (Ext.fin a) = Ext.fin |a| := rfl

theorem fin_max (a b : K) : Flt.stdMax (Ext.fin a) (Ext.fin b) = Ext.fin (max a b) := by
  unfold Flt.stdMax
  rw [fin_lt]
  by_cases h : a < b
  · simp [h, max_eq_right h.le]
  · simp [h, max_eq_left (not_lt.mp h)]

theorem fdiv_eq_fin {a b c : K} (h : fdiv a b = .ok c) : b ≠ 0 ∧ c = a / b := by
  unfold fdiv at h
  split at h
  · cases h
  · next hb => exact ⟨hb, by simpa using h.symm⟩

theorem fin_fdiv {a b c : K} (h : fdiv a b = .ok c) : (Ext.fin a / Ext.fin b) = Ext.fin c := by
  obtain ⟨h1, rfl⟩ := fdiv_eq_fin h
  exact fin_div a b h1

/-! ## PCG -/

/-- The state with the same numbers. -/
def PcgState.lift (s : PcgState K) : PcgState (Ext K) := ⟨Linalg.lift s.x, Linalg.lift s.r, Linalg.lift s.p, Linalg.lift s.z, Linalg.lift s.Ap, s.applied⟩

/-- The solver for extended numbers with the same operators, inner product and parameters. -/
structure Pcg.Lifts (S : Pcg K) (S' : Pcg (Ext K)) : Prop where
  A : S.A.Lifts S'.A
  M : (S.M = none ∧ S'.M = none) ∨ ∃ M M', S.M = some M ∧ S'.M = some M' ∧ M.Lifts M'
  maxIter : S'.maxIter = S.maxIter
  relTol : S'.relTol = .fin S.relTol
  absTol : S'.absTol = .fin S.absTol
  dot : ∀ x y, Follows (fun d d' => d' = Ext.fin d) (S.dot x y) (S'.dot (lift x) (lift y))

theorem Pcg.Lifts.precond {S : Pcg K} {S' : Pcg (Ext K)} (h : S.Lifts S') (r z : List K) :
    Follows (fun z z' => z' = lift z) (S.precond r z) (S'.precond (lift r) (lift z)) := by
  unfold Pcg.precond
  obtain ⟨h1, h2⟩ | ⟨M, M', h1, h2, h3⟩ := h.M
  · rw [h1, h2]; exact Follows.ok rfl
  · rw [h1, h2]; exact h3.multResize r z

theorem Pcg.Lifts.step {S : Pcg K} {S' : Pcg (Ext K)} (h : S.Lifts S') (tol : K) (s : PcgState K) :
    Follows (fun t t' => t' = (t.1, t.2.lift)) (S.step tol s) (S'.stepF (.fin (-10 ^ 12)) (.fin tol) s.lift) := by
  unfold Pcg.step Pcg.stepF
  refine (h.A.multResize s.p s.Ap).bind (fun Ap Ap' e => ?_)
  subst e
  refine (h.dot s.p Ap).bind (fun pAp pAp' e => ?_)
  subst e
  refine (h.dot s.r s.z).bind (fun rz rz' e => ?_)
  subst e
  refine Follows.skip (fun alpha ha => ?_)
  simp only
  rw [fin_fdiv ha]
  refine Follows.bind (R := fun _ _ => True) (fun u e => ⟨u, ?_, trivial⟩) (fun _ _ _ => ?_)
  · rw [← e]
    unfold cverify
    simp only [fin_lt, decide_eq_true_eq, gt_iff_lt]
  refine (follows_update (fun a b => by rw [fin_mul, fin_add]) s.x s.p).bind (fun x x' e => ?_)
  subst e
  refine (h.dot s.z s.r).bind (fun de de' e => ?_)
  subst e
  refine (follows_update (fun a b => by rw [fin_mul, fin_sub]) s.r Ap).bind (fun r r' e => ?_)
  subst e
  refine (h.precond r s.z).bind (fun z z' e => ?_)
  subst e
  refine (h.dot z r).bind (fun nu nu' e => ?_)
  subst e
  rw [fin_lt]
  by_cases hlt : nu < tol
  · rw [if_pos hlt]
    simp only [hlt, decide_true, if_true]
    exact Follows.ok rfl
  · rw [if_neg hlt]
    simp only [hlt, decide_false, Bool.false_eq_true, if_false]
    refine Follows.skip (fun beta hb => ?_)
    rw [fin_fdiv hb]
    have e : s.lift.p.map (fun u => u * Ext.fin beta) = Linalg.lift (s.p.map (fun u => u * beta)) := by
      unfold PcgState.lift Linalg.lift
      simp only [List.map_map]
      rfl
    rw [e]
    refine (follows_update (fun a b => fin_add a b) _ z).bind (fun p p' e => ?_)
    subst e
    exact Follows.ok rfl

theorem Pcg.Lifts.loop {S : Pcg K} {S' : Pcg (Ext K)} (h : S.Lifts S') (tol : K) (fuel : Nat) (k : Int) (s : PcgState K) :
    Follows (fun t t' => t' = (t.1, t.2.lift)) (S.loop tol fuel k s) (S'.loopF (.fin (-10 ^ 12)) (.fin tol) fuel k s.lift) := by
  induction fuel generalizing k s with
  | zero =>
    unfold Pcg.loop Pcg.loopF
    refine (h.step tol s).bind (fun t t' e => ?_)
    subst e
    exact Follows.ok rfl
  | succ n ih =>
    unfold Pcg.loop Pcg.loopF
    refine (h.step tol s).bind (fun t t' e => ?_)
    subst e
    simp only
    split
    · exact Follows.ok rfl
    · exact ih (k + 1) t.2

/-- **C128.**  Where the exact model of `PCGSolver::Mult` returns, the model with NaN and infinities returns the same. -/
theorem C128_pcg_exact (S : Pcg K) (S' : Pcg (Ext K)) (h : S.Lifts S') (b x : List K) (w : PcgState K) (N : Int) (st : PcgState K)
    (e : S.mult b x w = .ok (N, st)) : S'.multF (.fin (-10 ^ 12)) (lift b) (lift x) w.lift = .ok (N, st.lift) := by
  have key : Follows (fun t t' => t' = (t.1, t.2.lift)) (S.mult b x w) (S'.multF (.fin (-10 ^ 12)) (lift b) (lift x) w.lift) := by
    unfold Pcg.mult Pcg.multF
    rw [length_lift, length_lift, h.A.rows_eq]
    refine Follows.bind (R := fun _ _ => True) (fun u e => ⟨u, e, trivial⟩) (fun _ _ _ => ?_)
    refine Follows.bind (R := fun _ _ => True) (fun u e => ⟨u, e, trivial⟩) (fun _ _ _ => ?_)
    refine Follows.bind (R := fun t t' => t' = t.lift) ?_ (fun s s' e => ?_)
    · unfold Pcg.start Pcg.startF
      refine (h.A.multResize x w.Ap).bind (fun Ap Ap' e => ?_)
      subst e
      refine (follows_update (fun a b => fin_sub a b) b Ap).bind (fun r r' e => ?_)
      subst e
      refine (h.precond r w.z).bind (fun z z' e => ?_)
      subst e
      exact Follows.ok rfl
    subst e
    refine (h.dot s.z s.r).bind (fun r0 r0' e => ?_)
    subst e
    refine (h.dot s.z s.r).bind (fun now now' e => ?_)
    subst e
    simp only [h.relTol, h.absTol, fin_mul, fin_max, fin_lt]
    by_cases hlt : now < max (r0 * S.relTol * S.relTol) (S.absTol * S.absTol)
    · rw [if_pos hlt]
      simp only [hlt, decide_true, if_true]
      exact Follows.ok rfl
    · rw [if_neg hlt]
      simp only [hlt, decide_false, Bool.false_eq_true, if_false]
      rw [h.maxIter]
      exact h.loop _ _ _ s
  obtain ⟨t, e1, e2⟩ := key _ e
  rw [e1, e2]

/-! ## MINRES and PMINRES -/

section
variable [IsStrictOrderedRing K]

/-- The state with the same numbers. -/
def MinresState.lift (s : MinresState K) : MinresState (Ext K) :=
  ⟨Linalg.lift s.x, Linalg.lift s.w0, Linalg.lift s.w1, Linalg.lift s.v0, Linalg.lift s.v1, Linalg.lift s.q, .fin s.beta, .fin s.eta, .fin s.gamma,
    .fin s.gamma2, .fin s.sigma, .fin s.sigma2, s.applied⟩

/-- The state with the same numbers. -/
def PminresState.lift (s : PminresState K) : PminresState (Ext K) :=
  ⟨Linalg.lift s.x, Linalg.lift s.w0, Linalg.lift s.w1, Linalg.lift s.v0, Linalg.lift s.v1, Linalg.lift s.u1, Linalg.lift s.q, .fin s.beta, .fin s.eta,
    .fin s.gamma, .fin s.gamma2, .fin s.sigma, .fin s.sigma2, s.applied⟩

/-- The solver for extended numbers with the same operator, inner product and parameters; the square roots agree where the argument is not negative. -/
structure Minres.Lifts (S : Minres K) (S' : Minres (Ext K)) : Prop where
  A : S.A.Lifts S'.A
  maxIter : S'.maxIter = S.maxIter
  relTol : S'.relTol = .fin S.relTol
  absTol : S'.absTol = .fin S.absTol
  dot : ∀ x y, Follows (fun d d' => d' = Ext.fin d) (S.dot x y) (S'.dot (Linalg.lift x) (Linalg.lift y))
  sqrt : ∀ a, 0 ≤ a → S'.sqrt (.fin a) = .fin (S.sqrt a)

theorem follows_divVec (v : List K) (a : K) : Follows (fun z z' => z' = lift z) (Minres.divVec v a) (Flt.divVec (lift v) (.fin a)) := by
  unfold Minres.divVec Flt.divVec
  intro z e
  refine ⟨lift z, ?_, rfl⟩
  rw [bind_eq_ok] at e
  obtain ⟨u, e1, e2⟩ := e
  obtain rfl : v.map (fun u => u / a) = z := by simpa using e2
  rw [cassert_ok_iff] at e1
  have h0 : eq (Ext.fin a) (0 : Ext K) = false := decide_eq_false e1
  rw [cassert_true h0, ok_bind]
  congr 1
  unfold lift
  rw [List.map_map, List.map_map]
  refine List.map_congr_left (fun u _ => ?_)
  exact fin_div u a e1

theorem lift_replicate (n : Nat) : List.replicate n (0 : Ext K) = lift (List.replicate n (0 : K)) := by
  unfold lift
  rw [List.map_replicate]
  rfl

theorem Minres.Lifts.start {S : Minres K} {S' : Minres (Ext K)} (h : S.Lifts S') (hd : ∀ v d, S.dot v v = .ok d → 0 ≤ d) (b x : List K)
    (w : MinresState K) : Follows (fun t t' => t' = t.lift) (S.start b x w) (S'.startF (Linalg.lift b) (Linalg.lift x) w.lift) := by
  unfold Minres.start Minres.startF
  refine (h.A.multResize x w.q).bind (fun q q' e => ?_)
  subst e
  refine (follows_update (fun a b => fin_sub a b) b q).bind (fun v1 v1' e => ?_)
  subst e
  intro t e
  rw [bind_eq_ok] at e
  obtain ⟨d, e1, e2⟩ := e
  obtain ⟨d', e3, rfl⟩ := h.dot v1 v1 d e1
  obtain rfl := (Except.ok.inj e2).symm
  refine ⟨_, ?_, rfl⟩
  rw [e3, ok_bind]
  simp only [h.sqrt d (hd v1 d e1)]
  unfold MinresState.lift
  simp only [length_lift, lift_replicate]
  rfl

theorem Minres.Lifts.step {S : Minres K} {S' : Minres (Ext K)} (h : S.Lifts S') (hd : ∀ v d, S.dot v v = .ok d → 0 ≤ d) (tol : K) (s : MinresState K) :
    Follows (fun t t' => t' = (t.1, t.2.lift)) (S.step tol s) (S'.stepF (.fin tol) s.lift) := by
  unfold Minres.step Minres.stepF
  simp only [h.A.cols_eq]
  refine (follows_divVec s.v1 s.beta).bind (fun v1 v1' e => ?_)
  subst e
  refine (h.A.multResize v1 s.q).bind (fun q q' e => ?_)
  subst e
  refine (h.dot v1 q).bind (fun alpha alpha' e => ?_)
  subst e
  refine (follows_update3 (fun a b c => by simp only [MinresState.lift, fin_mul, fin_sub]) S.A.cols s.v0 q v1).bind (fun v0 v0' e => ?_)
  subst e
  intro t e
  rw [bind_eq_ok] at e
  obtain ⟨d, e1, e2⟩ := e
  obtain ⟨d', e3, rfl⟩ := h.dot v0 v0 d e1
  rw [e3, ok_bind]
  revert t
  change Follows _ _ _
  simp only [h.sqrt d (hd v0 d e1), MinresState.lift, fin_mul, fin_sub, fin_add, h.sqrt _ (add_nonneg (mul_self_nonneg _) (mul_self_nonneg _))]
  refine Follows.skip (fun c1 h1 => Follows.skip (fun c3 h3 => Follows.skip (fun c2 h2 => ?_)))
  rw [show (1 : Ext K) = .fin 1 from rfl, fin_fdiv h1, fin_fdiv h3, fin_fdiv h2]
  refine (follows_update3 (fun a b c => by simp only [fin_mul, fin_sub]) S.A.cols s.w0 v1 s.w1).bind (fun w0 w0' e => ?_)
  subst e
  refine Follows.skip (fun g2 hg => ?_)
  simp only [fin_fdiv hg]
  refine (follows_update2 (fun a b => by simp only [fin_mul, fin_add]) S.A.cols s.x w0).bind (fun x x' e => ?_)
  subst e
  refine Follows.skip (fun s2 hs => ?_)
  simp only [fin_fdiv hs, fin_neg, fin_mul, fin_abs, fin_lt]
  exact Follows.ok rfl

theorem Minres.Lifts.loop {S : Minres K} {S' : Minres (Ext K)} (h : S.Lifts S') (hd : ∀ v d, S.dot v v = .ok d → 0 ≤ d) (tol : K) (fuel : Nat) (k : Int)
    (s : MinresState K) : Follows (fun t t' => t' = (t.1, t.2.lift)) (S.loop tol fuel k s) (S'.loopF (.fin tol) fuel k s.lift) := by
  induction fuel generalizing k s with
  | zero => exact Follows.ok rfl
  | succ n ih =>
    unfold Minres.loop Minres.loopF
    refine (h.step hd tol s).bind (fun t t' e => ?_)
    subst e
    simp only
    split
    · exact Follows.ok rfl
    · exact ih (k + 1) (Minres.swapVecs t.2)

/-- **C128.**  Where the exact model of `MINRESSolver::Mult` returns, the model with NaN and infinities returns the same. -/
theorem C128_minres_exact (S : Minres K) (S' : Minres (Ext K)) (h : S.Lifts S') (hd : ∀ v d, S.dot v v = .ok d → 0 ≤ d) (b x : List K)
    (w : MinresState K) (N : Int) (st : MinresState K) (e : S.mult b x w = .ok (N, st)) :
    S'.multF (lift b) (lift x) w.lift = .ok (N, st.lift) := by
  have key : Follows (fun t t' => t' = (t.1, t.2.lift)) (S.mult b x w) (S'.multF (lift b) (lift x) w.lift) := by
    unfold Minres.mult Minres.multF
    rw [length_lift, length_lift, h.A.rows_eq]
    refine Follows.bind (R := fun _ _ => True) (fun u e => ⟨u, e, trivial⟩) (fun _ _ _ => ?_)
    refine Follows.bind (R := fun _ _ => True) (fun u e => ⟨u, e, trivial⟩) (fun _ _ _ => ?_)
    refine (h.start hd b x w).bind (fun s s' e => ?_)
    subst e
    have ht : Flt.stdMax (s.lift.beta * S'.relTol * S'.relTol) (S'.absTol * S'.absTol)
        = .fin (max (s.beta * S.relTol * S.relTol) (S.absTol * S.absTol)) := by
      rw [h.relTol, h.absTol]
      simp only [MinresState.lift, fin_mul, fin_max]
    simp only [ht]
    rw [h.maxIter]
    exact h.loop hd _ _ _ s
  obtain ⟨t, e1, e2⟩ := key _ e
  rw [e1, e2]

/-- The preconditioner is not negative in the inner product: the arguments of `sqrt` in `PMINRESSolver::Mult` are not. -/
def Op.NotNeg (M : Op K) (dot : List K → List K → Res K) : Prop :=
  ∀ v y u d, M.multResize v y = .ok u → (dot u v = .ok d ∨ dot v u = .ok d) → 0 ≤ d

theorem Pminres.startLift {S : Minres K} {S' : Minres (Ext K)} {M : Op K} {M' : Op (Ext K)} (h : S.Lifts S') (hM : M.Lifts M') (hd : M.NotNeg S.dot)
    (b x : List K) (w : PminresState K) :
    Follows (fun t t' => t' = t.lift) (Pminres.start S M b x w) (Pminres.startF S' M' (Linalg.lift b) (Linalg.lift x) w.lift) := by
  unfold Pminres.start Pminres.startF
  refine (h.A.multResize x w.q).bind (fun q q' e => ?_)
  subst e
  refine (follows_update (fun a b => fin_sub a b) b q).bind (fun v1 v1' e => ?_)
  subst e
  intro t e
  rw [bind_eq_ok] at e
  obtain ⟨u1, e0, e⟩ := e
  rw [bind_eq_ok] at e
  obtain ⟨d, e1, e2⟩ := e
  obtain ⟨u1', e4, rfl⟩ := hM.multResize v1 w.u1 u1 e0
  obtain ⟨d', e3, rfl⟩ := h.dot u1 v1 d e1
  obtain rfl := (Except.ok.inj e2).symm
  refine ⟨_, ?_, rfl⟩
  rw [show w.lift.u1 = Linalg.lift w.u1 from rfl, e4, ok_bind, e3, ok_bind]
  simp only [h.sqrt d (hd v1 w.u1 u1 d e0 (Or.inl e1))]
  unfold PminresState.lift
  simp only [length_lift, lift_replicate]
  rfl

theorem Pminres.stepLift {S : Minres K} {S' : Minres (Ext K)} {M : Op K} {M' : Op (Ext K)} (h : S.Lifts S') (hM : M.Lifts M') (hd : M.NotNeg S.dot)
    (tol : K) (s : PminresState K) :
    Follows (fun t t' => t' = (t.1, t.2.lift)) (Pminres.step S M tol s) (Pminres.stepF S' M' (.fin tol) s.lift) := by
  unfold Pminres.step Pminres.stepF
  simp only [h.A.cols_eq]
  refine (follows_divVec s.v1 s.beta).bind (fun v1 v1' e => ?_)
  subst e
  refine (follows_divVec s.u1 s.beta).bind (fun u1 u1' e => ?_)
  subst e
  refine (h.A.multResize u1 s.q).bind (fun q q' e => ?_)
  subst e
  refine (h.dot u1 q).bind (fun alpha alpha' e => ?_)
  subst e
  refine (follows_update3 (fun a b c => by simp only [PminresState.lift, fin_mul, fin_sub]) S.A.cols s.v0 q v1).bind (fun v0 v0' e => ?_)
  subst e
  intro t e
  rw [bind_eq_ok] at e
  obtain ⟨q2, e0, e⟩ := e
  rw [bind_eq_ok] at e
  obtain ⟨d, e1, e2⟩ := e
  obtain ⟨q2', e4, rfl⟩ := hM.multResize v0 q q2 e0
  obtain ⟨d', e3, rfl⟩ := h.dot v0 q2 d e1
  rw [e4, ok_bind, e3, ok_bind]
  revert t
  change Follows _ _ _
  simp only [h.sqrt d (hd v0 q q2 d e0 (Or.inr e1)), PminresState.lift, fin_mul, fin_sub, fin_add,
    h.sqrt _ (add_nonneg (mul_self_nonneg _) (mul_self_nonneg _))]
  refine Follows.skip (fun c1 h1 => Follows.skip (fun c3 h3 => Follows.skip (fun c2 h2 => ?_)))
  rw [show (1 : Ext K) = .fin 1 from rfl, fin_fdiv h1, fin_fdiv h3, fin_fdiv h2]
  refine (follows_update3 (fun a b c => by simp only [fin_mul, fin_sub]) S.A.cols s.w0 u1 s.w1).bind (fun w0 w0' e => ?_)
  subst e
  refine Follows.skip (fun g2 hg => ?_)
  simp only [fin_fdiv hg]
  refine (follows_update2 (fun a b => by simp only [fin_mul, fin_add]) S.A.cols s.x w0).bind (fun x x' e => ?_)
  subst e
  refine Follows.skip (fun s2 hs => ?_)
  simp only [fin_fdiv hs, fin_neg, fin_mul, fin_abs, fin_lt]
  exact Follows.ok rfl

theorem Pminres.loopLift {S : Minres K} {S' : Minres (Ext K)} {M : Op K} {M' : Op (Ext K)} (h : S.Lifts S') (hM : M.Lifts M') (hd : M.NotNeg S.dot)
    (tol : K) (fuel : Nat) (k : Int) (s : PminresState K) :
    Follows (fun t t' => t' = (t.1, t.2.lift)) (Pminres.loop S M tol fuel k s) (Pminres.loopF S' M' (.fin tol) fuel k s.lift) := by
  induction fuel generalizing k s with
  | zero => exact Follows.ok rfl
  | succ n ih =>
    unfold Pminres.loop Pminres.loopF
    refine (Pminres.stepLift h hM hd tol s).bind (fun t t' e => ?_)
    subst e
    simp only
    split
    · exact Follows.ok rfl
    · exact ih (k + 1) (Pminres.swapVecs t.2)

/-- **C128.**  Where the exact model of `PMINRESSolver::Mult` returns, the model with NaN and infinities returns the same. -/
theorem C128_pminres_exact (S : Minres K) (S' : Minres (Ext K)) (M : Op K) (M' : Op (Ext K)) (h : S.Lifts S') (hM : M.Lifts M') (hd : M.NotNeg S.dot)
    (b x : List K) (w : PminresState K) (N : Int) (st : PminresState K) (e : Pminres.mult S M b x w = .ok (N, st)) :
    Pminres.multF S' M' (lift b) (lift x) w.lift = .ok (N, st.lift) := by
  have key : Follows (fun t t' => t' = (t.1, t.2.lift)) (Pminres.mult S M b x w) (Pminres.multF S' M' (lift b) (lift x) w.lift) := by
    unfold Pminres.mult Pminres.multF
    rw [length_lift, length_lift, h.A.rows_eq, h.A.cols_eq]
    refine Follows.bind (R := fun _ _ => True) (fun u e => ⟨u, e, trivial⟩) (fun _ _ _ => ?_)
    refine Follows.bind (R := fun _ _ => True) (fun u e => ⟨u, e, trivial⟩) (fun _ _ _ => ?_)
    refine (Pminres.startLift h hM hd b x w).bind (fun s s' e => ?_)
    subst e
    have ht : Flt.stdMax (s.lift.beta * S'.relTol * S'.relTol) (S'.absTol * S'.absTol)
        = .fin (max (s.beta * S.relTol * S.relTol) (S.absTol * S.absTol)) := by
      rw [h.relTol, h.absTol]
      simp only [PminresState.lift, fin_mul, fin_max]
    simp only [ht]
    rw [h.maxIter]
    exact Pminres.loopLift h hM hd _ _ _ s
  obtain ⟨t, e1, e2⟩ := key _ e
  rw [e1, e2]

end

/-! ## Products with sparse matrices and inner products -/

theorem follows_rd {σ τ : Type} (g : σ → τ) (x : List σ) (i : Int) : Follows (fun a b => b = g a) (rd x i) (rd (x.map g) i) := by
  intro a e
  refine ⟨g a, ?_, rfl⟩
  unfold rd at *
  split at e
  · next h =>
    rw [if_pos h, List.getElem?_map]
    cases hx : x[i.toNat]? with
    | none => rw [hx] at e; cases e
    | some y =>
      rw [hx] at e
      obtain rfl : y = a := by simpa using e
      rfl
  · cases e

/-- The matrix with the same numbers. -/
def Csr.lift (A : Csr K) : Csr (Ext K) := ⟨A.rows, A.cols, A.indptr, A.indices, A.data.map .fin⟩

theorem Csr.follows_mult (A : Csr K) (x y : List K) : Follows (fun z z' => z' = Linalg.lift z) (A.mult x y) (A.lift.mult (Linalg.lift x) (Linalg.lift y)) := by
  unfold Csr.mult Csr.forRow
  rw [length_lift, length_lift]
  refine Follows.bind (R := fun _ _ => True) (fun u e => ⟨u, e, trivial⟩) (fun _ _ _ => ?_)
  refine Follows.bind (R := fun _ _ => True) (fun u e => ⟨u, e, trivial⟩) (fun _ _ _ => ?_)
  refine Follows.forUp rfl (fun i s t e => ?_)
  subst e
  refine Follows.bind (R := fun a b => b = Ext.fin a) ?_ (fun a b e => by subst e; exact follows_vwr s i a)
  refine Follows.bind (R := fun a b => a = b) (fun u e => ⟨u, e, rfl⟩) (fun lo lo' e => ?_)
  subst e
  refine Follows.bind (R := fun a b => a = b) (fun u e => ⟨u, e, rfl⟩) (fun hi hi' e => ?_)
  subst e
  refine Follows.forUp rfl (fun j v v' e => ?_)
  subst e
  refine (follows_rd Ext.fin A.data j).bind (fun d d' e => ?_)
  subst e
  refine Follows.bind (R := fun a b => a = b) (fun u e => ⟨u, e, rfl⟩) (fun c c' e => ?_)
  subst e
  refine (follows_vrd x c).bind (fun a a' e => ?_)
  subst e
  exact Follows.ok (by rw [fin_mul, fin_add])

/-- **C128.**  The product with a matrix that has no NaN and no infinity, of a vector that has none, is the exact one. -/
theorem C128_csr_exact (A : Csr K) : A.toOp.Lifts A.lift.toOp where
  rows_eq := rfl
  cols_eq := rfl
  mult_eq x y := A.follows_mult x y

/-- **C128.**  And so is the inner product. -/
theorem C128_inner_exact (x y : List K) : Follows (fun d d' => d' = Ext.fin d) (Vec.inner x y) (Vec.inner (lift x) (lift y)) := by
  unfold Vec.inner
  rw [length_lift, length_lift]
  refine Follows.bind (R := fun _ _ => True) (fun u e => ⟨u, e, trivial⟩) (fun _ _ _ => Follows.ok ?_)
  have key : ∀ (l : List (K × K)) (s : K), (l.map (Prod.map Ext.fin Ext.fin)).foldl (fun s p => s + p.1 * p.2) (Ext.fin s)
      = Ext.fin (l.foldl (fun s p => s + p.1 * p.2) s) := by
    intro l
    induction l with
    | nil => intro s; rfl
    | cons a l ih => intro s; exact ih (s + a.1 * a.2)
  have hz : (lift x).zip (lift y) = (x.zip y).map (Prod.map Ext.fin Ext.fin) := by
    unfold lift
    rw [List.zip_map]
  rw [hz]
  exact key (x.zip y) 0

/-- **C128.**  On vectors without NaN and infinities, `operator==`, `Max` and `Min` are those of the exact model. -/
theorem C128_vector_exact (tol : K) (x y : List K) :
    (∀ r, Vec.eqTol tol x y = .ok r → Flt.vecEq (.fin tol) (lift x) (lift y) = .ok r) ∧
    Flt.max (lift x) = (Vec.max x).map Ext.fin ∧ Flt.min (lift x) = (Vec.min x).map Ext.fin := by
  refine ⟨fun r e => ?_, ?_, ?_⟩
  · have key : Follows (fun a b => a = b) (Vec.eqTol tol x y) (Flt.vecEq (.fin tol) (lift x) (lift y)) := by
      unfold Vec.eqTol Flt.vecEq
      rw [length_lift, length_lift]
      split
      · exact Follows.ok rfl
      · refine Follows.bind (R := fun a b => a = b) ?_ (fun a b e => by subst e; exact Follows.ok rfl)
        refine Follows.forUp rfl (fun i s t e => ?_)
        subst e
        split
        · exact Follows.ok rfl
        · refine (follows_vrd x i).bind (fun a a' e => ?_)
          subst e
          refine (follows_vrd y i).bind (fun b b' e => ?_)
          subst e
          rw [fin_sub, fin_abs, fin_lt]
          exact Follows.ok rfl
    obtain ⟨t, e1, rfl⟩ := key r e
    exact e1
  · cases x with
    | nil => rfl
    | cons a l =>
      have key : ∀ (l : List K) (m : K), Vec.maxElement lt (Ext.fin m) (lift l) = Ext.fin (Vec.maxElement (fun a b => decide (a < b)) m l) := by
        intro l
        induction l with
        | nil => intro m; rfl
        | cons b l ih =>
          intro m
          unfold Vec.maxElement lift at *
          rw [List.map_cons, List.foldl_cons, List.foldl_cons, fin_lt]
          by_cases h : m < b
          · simpa [h] using ih b
          · simpa [h] using ih m
      exact congrArg Except.ok (key l a)
  · cases x with
    | nil => rfl
    | cons a l =>
      have key : ∀ (l : List K) (m : K), Vec.minElement lt (Ext.fin m) (lift l) = Ext.fin (Vec.minElement (fun a b => decide (a < b)) m l) := by
        intro l
        induction l with
        | nil => intro m; rfl
        | cons b l ih =>
          intro m
          unfold Vec.minElement lift at *
          rw [List.map_cons, List.foldl_cons, List.foldl_cons, fin_lt]
          by_cases h : b < m
          · simpa [h] using ih b
          · simpa [h] using ih m
      exact congrArg Except.ok (key l a)

/-- CG for `[[2, 1], [1, 2]]` in exact numbers. -/
def exactPcg : Pcg ℚ := ⟨(⟨2, 2, [0, 2, 4], [0, 1, 0, 1], [2, 1, 1, 2]⟩ : Csr ℚ).toOp, none, 10, 0, 1 / 1000, Vec.inner⟩

theorem exactPcg_lifts : exactPcg.Lifts (fltPcg 10 (1 / 1000)) where
  A := C128_csr_exact _
  M := Or.inl ⟨rfl, rfl⟩
  maxIter := rfl
  relTol := rfl
  absTol := rfl
  dot := C128_inner_exact

example : (fltPcg 10 (1 / 1000)).multF (.fin (-10 ^ 12)) (lift [3, 4]) (lift [0, 0]) (PcgState.lift ⟨[], [], [], [], [], 0⟩)
    = .ok (2, PcgState.lift ⟨[2 / 3, 5 / 3], [0, 0], [-1925 / 5476, 875 / 2738], [0, 0], [-525 / 1369, 1575 / 5476], 3⟩) :=
  C128_pcg_exact exactPcg _ exactPcg_lifts _ _ _ _ _ (by decide +kernel)

/-- MINRES and PMINRES for `diag(1, -1)`. -/
def exactMinres : Minres ℚ :=
  ⟨(⟨2, 2, [0, 1, 2], [0, 1], [1, -1]⟩ : Csr ℚ).toOp, 3, 0, 1 / 1000, fun x => if x = 64 then 8 else if x = 1 then 1 else 0, Vec.inner⟩

theorem inner_notNeg (v : List ℚ) (d : ℚ) (e : Vec.inner v v = .ok d) : 0 ≤ d := by
  unfold Vec.inner at e
  rw [cassert_true rfl, ok_bind] at e
  obtain rfl := Except.ok.inj e
  have key : ∀ (l : List ℚ) (s : ℚ), 0 ≤ s → 0 ≤ (l.zip l).foldl (fun s p => s + p.1 * p.2) s := by
    intro l
    induction l with
    | nil => intro s hs; exact hs
    | cons a l ih => intro s hs; exact ih _ (add_nonneg hs (mul_self_nonneg a))
  exact key v 0 (le_refl _)

/-- The same solver with NaN and infinities. -/
def fltMinres : Minres (Ext ℚ) := ⟨(⟨2, 2, [0, 1, 2], [0, 1], [.fin 1, .fin (-1)]⟩ : Csr (Ext ℚ)).toOp, 3, .fin 0, .fin (1 / 1000), fltSqrt, Vec.inner⟩

theorem exactMinres_lifts : exactMinres.Lifts fltMinres where
  A := C128_csr_exact (⟨2, 2, [0, 1, 2], [0, 1], [1, -1]⟩ : Csr ℚ)
  maxIter := rfl
  relTol := rfl
  absTol := rfl
  dot := C128_inner_exact
  sqrt a ha := by
    unfold fltMinres fltSqrt exactMinres
    simp only [not_lt.mpr ha, if_false]
    split
    · rfl
    · split <;> rfl

example : fltMinres.multF (lift [0, 8]) (lift [0, 0]) (MinresState.lift ⟨[], [0, 0], [0, 0], [0, 0], [0, 0], [0, 0], 0, 0, 0, 0, 0, 0, 0⟩)
    = .ok (1, MinresState.lift ⟨[0, -8], [0, 1], [0, 0], [0, 0], [0, 1], [0, -1], 0, 0, 1, -1, 0, 0, 2⟩) :=
  C128_minres_exact exactMinres _ exactMinres_lifts inner_notNeg _ _ _ _ _ (by decide +kernel)

end Linalg
