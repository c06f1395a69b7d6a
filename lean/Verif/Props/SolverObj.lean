import Verif.Proof.SolverObj
import Verif.Props.Plain

/-!
# Solver objects and the operators they refer to (C102)
-/

namespace Linalg
open Cpp

variable {α : Type}

theorem SolverBase.copy_eq (o : SolverBase α) : o.copy = if sized o.rows o.cols then .ok o else .error .assertFail := by
  unfold SolverBase.copy
  rw [copySizes_eq]
  cases sized o.rows o.cols <;> rfl

section
variable [Field α] [LinearOrder α]

/-- **C102**: in every program that makes, changes and destroys operators and constructs, copies, moves, assigns, swaps, destroys,
configures and calls PCG solvers, each solver is a value of its own: its settings, its work vectors and the operators it refers to.  A
copy refers to the same operators; a moved-from solver is what `PCGSolver()` makes. -/
theorem C102_pcg_values (prog : List (IterStmt α)) :
    (SolverWorld.run PcgObj.cls prog ⟨[], []⟩).map SolverWorld.pair
      = valRun (fun m => plainVals (PcgObj.make m) (fun o => sized o.base.rows o.base.cols) PcgObj.blank (PcgObj.update m)) prog ([], []) := by
  apply world_run_eq PcgObj.cls (fun o => sized o.base.rows o.base.cols)
  · intro m o
    show PcgObj.copy o = _
    unfold PcgObj.copy
    rw [SolverBase.copy_eq]
    cases sized o.base.rows o.base.cols <;> rfl
  · intro m o p; rfl

/-- **C102**: the same for MINRES solvers. -/
theorem C102_minres_values (sqrt : α → α) (prog : List (IterStmt α)) :
    (SolverWorld.run (MinresObj.cls sqrt) prog ⟨[], []⟩).map SolverWorld.pair
      = valRun (fun m => plainVals (MinresObj.make m) (fun o => sized o.base.rows o.base.cols) MinresObj.blank (MinresObj.update sqrt m))
          prog ([], []) := by
  apply world_run_eq (MinresObj.cls sqrt) (fun o => sized o.base.rows o.base.cols)
  · intro m o
    show MinresObj.copy o = _
    unfold MinresObj.copy
    rw [SolverBase.copy_eq]
    cases sized o.base.rows o.base.cols <;> rfl
  · intro m o p; rfl

/-- **C102**: the same for preconditioned MINRES solvers. -/
theorem C102_pminres_values (sqrt : α → α) (prog : List (IterStmt α)) :
    (SolverWorld.run (PminresObj.cls sqrt) prog ⟨[], []⟩).map SolverWorld.pair
      = valRun (fun m => plainVals (PminresObj.make m) (fun o => sized o.base.rows o.base.cols) PminresObj.blank (PminresObj.update sqrt m))
          prog ([], []) := by
  apply world_run_eq (PminresObj.cls sqrt) (fun o => sized o.base.rows o.base.cols)
  · intro m o
    show PminresObj.copy o = _
    unfold PminresObj.copy
    rw [SolverBase.copy_eq]
    cases sized o.base.rows o.base.cols <;> rfl
  · intro m o p; rfl

end

/-! ## What holds of the members in every program -/

theorem Mem.get_some {C : Type} {m : Mem C} {k : Nat} {c : C} (h : m.get k = .ok c) : m[k]? = some (some c) := by
  unfold Mem.get at h
  split at h
  · cases h; assumption
  · cases h

theorem Mem.get_dead {C : Type} {m : Mem C} {k : Nat} (h : ¬ m.Live k) : m.get k = .error .undefinedBehaviour := by
  unfold Mem.get
  split
  · next c hc => exact absurd ⟨c, hc⟩ h
  · rfl

/-- Without an operator, or with an operator and an inner product. -/
def SolverBase.Bound (o : SolverBase α) : Prop := o.A = .null ∨ ∃ k d, o.A = .to k ∧ o.dot = some d

theorem SolverBase.make_ok {m : OpMem α} {a : SolverArgs α} {o : SolverBase α} (h : SolverBase.make m a = .ok o) :
    ∃ A, m.get a.A = .ok A ∧ A.rows = A.cols ∧ 0 ≤ A.rows ∧
      o = ⟨A.rows, A.cols, .to a.A, a.maxIter, a.verbose, a.relTol, a.absTol, some a.dot, 0⟩ := by
  unfold SolverBase.make at h
  obtain ⟨A, hA, h⟩ := bind_eq_ok.1 h
  rw [copySizes_eq] at h
  cases hs : sized A.rows A.cols with
  | false => rw [hs] at h; cases h
  | true =>
    rw [hs, if_pos rfl, ok_bind] at h
    obtain ⟨_, _, h⟩ := bind_eq_ok.1 h
    obtain ⟨_, h2, h⟩ := bind_eq_ok.1 h
    cases h
    simp [sized] at hs
    exact ⟨A, hA, cassert_ok_iff.1 h2, hs.1, rfl⟩

theorem SolverBase.set_ok {m : OpMem α} {o o' : SolverBase α} {u : SolverChange α} (h : o.set m u = .ok o') :
    o'.dot = o.dot ∧ (o'.A = o.A ∨ ∃ k j A B, o.A = .to j ∧ m.get j = .ok B ∧ o'.A = .to k ∧ m.get k = .ok A ∧ A.rows = B.rows ∧ A.cols = B.cols) := by
  cases u with
  | operator k =>
    simp only [SolverBase.set, SolverBase.setOperator] at h
    obtain ⟨A, hA, h⟩ := bind_eq_ok.1 h
    obtain ⟨B, hB, h⟩ := bind_eq_ok.1 h
    obtain ⟨_, h1, h⟩ := bind_eq_ok.1 h
    obtain ⟨_, h2, h⟩ := bind_eq_ok.1 h
    cases h
    refine ⟨rfl, .inr ?_⟩
    cases ho : o.A with
    | «to» j =>
      rw [ho] at hB
      exact ⟨k, j, A, B, rfl, hB, rfl, hA, cassert_ok_iff.1 h1, cassert_ok_iff.1 h2⟩
    | null => rw [ho] at hB; cases hB
    | outside => rw [ho] at hB; cases hB
    | indeterminate => rw [ho] at hB; cases hB
  | maxIter n => cases h; exact ⟨rfl, .inl rfl⟩
  | relTol n => cases h; exact ⟨rfl, .inl rfl⟩
  | absTol n => cases h; exact ⟨rfl, .inl rfl⟩
  | verbose n => cases h; exact ⟨rfl, .inl rfl⟩
  | precond n => cases h; exact ⟨rfl, .inl rfl⟩
  | mult b x => cases h; exact ⟨rfl, .inl rfl⟩

theorem SolverBase.Bound.set {m : OpMem α} {o o' : SolverBase α} {u : SolverChange α} (ho : o.Bound) (h : o.set m u = .ok o') : o'.Bound := by
  obtain ⟨hd, h | ⟨k, j, A, B, hj, _, hk, _⟩⟩ := SolverBase.set_ok h
  · rcases ho with ho | ⟨k, d, h1, h2⟩
    · exact .inl (h.trans ho)
    · exact .inr ⟨k, d, h.trans h1, hd.trans h2⟩
  · rcases ho with ho | ⟨k', d, h1, h2⟩
    · rw [ho] at hj; cases hj
    · exact .inr ⟨k, d, hk, hd.trans h2⟩

theorem SolverBase.target_null (m : OpMem α) {o : SolverBase α} (h : o.A = .null) : o.target m = .error .assertFail := by
  unfold SolverBase.target
  rw [h, cassert_false (by simp)]
  rfl

theorem SolverBase.target_to (m : OpMem α) {o : SolverBase α} {k : Nat} (h : o.A = .to k) : o.target m = m.get k := by
  unfold SolverBase.target
  rw [h, cassert_true (by simp)]
  rfl

theorem Op.Overwrites.resize [Zero α] {op : Op α} (h : op.Overwrites) (x t u : List α) : op.multResize x t = op.multResize x u := by
  unfold Op.multResize
  rcases setSize_cases t op.rows 0 with ⟨t', ht, hl⟩ | ⟨hn, ht⟩
  · rcases setSize_cases u op.rows 0 with ⟨u', hu, hl'⟩ | ⟨hn, hu⟩
    · rw [ht, hu, ok_bind, ok_bind]
      exact h _ _ _ (by omega)
    · omega
  · rcases setSize_cases u op.rows 0 with ⟨u', hu, hl'⟩ | ⟨_, hu⟩
    · omega
    · rw [ht, hu]

section
variable [Field α] [LinearOrder α]

/-- The work vectors of a PCG solver do not matter. -/
theorem Pcg.mult_work (S : Pcg α) (hA : S.A.Overwrites) (hM : ∀ M, S.M = some M → M.Overwrites) (b x : List α) (w w' : PcgState α) :
    S.mult b x w = S.mult b x w' := by
  have h : S.start b { w with x := x, applied := 0 } = S.start b { w' with x := x, applied := 0 } := by
    unfold Pcg.start
    rw [hA.resize x w.Ap w'.Ap]
    congr 1; funext Ap
    congr 1; funext r
    have hp : S.precond r w.z = S.precond r w'.z := by
      unfold Pcg.precond
      cases hm : S.M with
      | none => rfl
      | some M => exact (hM M hm).resize _ _ _
    show (S.precond r w.z >>= _) = (S.precond r w'.z >>= _)
    rw [hp]
  unfold Pcg.mult
  rw [h]

/-- What `M_` stands for. -/
def PrecIs (m : OpMem α) (p : CPtr) : Option (Op α) → Prop
  | none => p = .null
  | some M => ∃ j, p = .to j ∧ m.get j = .ok M

omit [Field α] [LinearOrder α] in
theorem PcgObj.prec_eq {m : OpMem α} {o : PcgObj α} {M : Option (Op α)} (h : PrecIs m o.M M) : o.prec m = .ok M := by
  unfold PcgObj.prec
  cases M with
  | none => rw [show o.M = .null from h]
  | some M =>
    obtain ⟨j, hj, hM⟩ := h
    rw [hj]
    show (m.get j >>= _) = _
    rw [hM]
    rfl

/-- **C102**: in every program, and for every PCG solver in it: either it has no operator, and `Mult` stops at the check, or it refers
to an operator.  If that operator has been destroyed, `Mult` is undefined behaviour.  Otherwise, if the operator and the preconditioner
overwrite their output, `Mult` does what a solver for the operators as they are now would do, with whatever work vectors: the same
solution, the same number of iterations. -/
theorem C102_pcg (prog : List (IterStmt α)) (w : SolverWorld α (PcgObj α)) (hr : SolverWorld.run PcgObj.cls prog ⟨[], []⟩ = .ok w)
    (i : Nat) (o : PcgObj α) (ho : w.objs[i]? = some (some o)) (b x : List α) :
    (o.base.A = .null ∧ o.solve w.ops b x = .error .assertFail) ∨ ∃ k d, o.base.A = .to k ∧ o.base.dot = some d ∧
      (¬ w.ops.Live k → o.solve w.ops b x = .error .undefinedBehaviour) ∧
      (∀ A M, w.ops.get k = .ok A → PrecIs w.ops o.M M → A.Overwrites → (∀ N, M = some N → N.Overwrites) → ∀ work,
        (o.solve w.ops b x).map (fun t => (t.1.base.numIter, t.2))
          = (Pcg.mult ⟨A, M, o.base.maxIter, o.base.relTol, o.base.absTol, d⟩ b x work).map (fun t => (t.1, t.2.x))) := by
  have hv := C102_pcg_values (α := α) prog
  rw [hr] at hv
  have hb : o.base.Bound := by
    refine val_run_all _ (fun _ (o : PcgObj α) => o.base.Bound) (fun _ => True) ?_ ?_ ?_ ?_ ?_ prog (by simp) ([], []) w.pair
      (by simp) hv.symm o (List.mem_of_getElem? ho)
    · intro m a v h
      change PcgObj.make m a = .ok v at h
      unfold PcgObj.make at h
      obtain ⟨base, hbase, h⟩ := bind_eq_ok.1 h
      obtain ⟨A, _, _, _, rfl⟩ := SolverBase.make_ok hbase
      obtain ⟨_, _, h⟩ := bind_eq_ok.1 h
      obtain ⟨_, _, h⟩ := bind_eq_ok.1 h
      obtain ⟨_, _, h⟩ := bind_eq_ok.1 h
      obtain ⟨_, _, h⟩ := bind_eq_ok.1 h
      obtain ⟨_, _, h⟩ := bind_eq_ok.1 h
      cases hM : a.M with
      | none => rw [hM] at h; cases h; exact .inr ⟨_, _, rfl, rfl⟩
      | some k =>
        rw [hM] at h
        obtain ⟨_, _, h⟩ := bind_eq_ok.1 h
        obtain ⟨_, _, h⟩ := bind_eq_ok.1 h
        obtain ⟨_, _, h⟩ := bind_eq_ok.1 h
        cases h
        exact .inr ⟨_, _, rfl, rfl⟩
    · intro m v u v' hv h
      change PcgObj.update m v u = .ok v' at h
      have hset : (do let base ← v.base.set m u; .ok { v with base := base } : Res (PcgObj α)) = .ok v' → v'.base.Bound := by
        intro h
        obtain ⟨base, hbase, h⟩ := bind_eq_ok.1 h
        cases h
        exact hv.set hbase
      cases u with
      | precond k =>
        obtain ⟨_, _, h⟩ := bind_eq_ok.1 h
        cases h
        exact hv
      | mult b x =>
        obtain ⟨t, ht, h⟩ := bind_eq_ok.1 h
        cases h
        unfold PcgObj.solve at ht
        obtain ⟨_, _, ht⟩ := bind_eq_ok.1 ht
        obtain ⟨_, _, ht⟩ := bind_eq_ok.1 ht
        obtain ⟨_, _, ht⟩ := bind_eq_ok.1 ht
        obtain ⟨_, _, ht⟩ := bind_eq_ok.1 ht
        obtain ⟨_, _, ht⟩ := bind_eq_ok.1 ht
        obtain ⟨_, _, ht⟩ := bind_eq_ok.1 ht
        cases ht
        exact hv
      | operator k => exact hset h
      | maxIter k => exact hset h
      | relTol k => exact hset h
      | absTol k => exact hset h
      | verbose k => exact hset h
    · intro m v v' hv h
      simp only [plainVals] at h
      split at h
      · cases h; exact hv
      · cases h
    · intro m; exact .inl rfl
    · intro w w' s _ _ _ v hv; exact hv
  rcases hb with hb | ⟨k, d, hk, hd⟩
  · refine .inl ⟨hb, ?_⟩
    unfold PcgObj.solve
    rw [SolverBase.target_null _ hb]
    rfl
  · refine .inr ⟨k, d, hk, hd, ?_, ?_⟩
    · intro hdead
      unfold PcgObj.solve
      rw [SolverBase.target_to _ hk, Mem.get_dead hdead]
      rfl
    · intro A M hA hM hAo hMo work
      have hw := Pcg.mult_work ⟨A, M, o.base.maxIter, o.base.relTol, o.base.absTol, d⟩ hAo hMo b x work ⟨x, o.r, o.p, o.z, o.Ap, 0⟩
      rw [hw]
      unfold PcgObj.solve
      rw [SolverBase.target_to _ hk, hA, ok_bind, PcgObj.prec_eq hM]
      by_cases h1 : (x.length : Int) = A.rows
      · by_cases h2 : (b.length : Int) = A.rows
        · rw [cassert_true h1, cassert_true h2]
          simp only [ok_bind, SolverBase.callee, hd]
          cases Pcg.mult _ b x _ <;> rfl
        · rw [cassert_true h1, cassert_false h2]
          unfold Pcg.mult
          rw [cassert_true h1, cassert_false h2]
          rfl
      · rw [cassert_false h1]
        unfold Pcg.mult
        rw [cassert_false h1]
        rfl

/-! ## The MINRES solvers -/

omit [Field α] [LinearOrder α] in
theorem forUp_length {f : Int → List α → Res (List α)} (hf : ∀ i x y, f i x = .ok y → y.length = x.length) {a b : Int} {x y : List α}
    (h : forUp a b x f = .ok y) : y.length = x.length := by
  have := forUp_outcome (R := fun u v => u = v ∧ u.length = x.length) (f := f) (g := f) (fun i u v huv => by
    obtain ⟨rfl, hl⟩ := huv
    cases hu : f i u with
    | error e => exact rfl
    | ok z => exact ⟨rfl, (hf i u z hu).trans hl⟩) a b ⟨rfl, rfl⟩
  rw [h] at this
  exact this.2

omit [Field α] [LinearOrder α] in
theorem vwr_length {x y : List α} {i : Int} {v : α} (h : vwr x i v = .ok y) : y.length = x.length := by
  unfold vwr wr at h
  obtain ⟨_, _, h⟩ := bind_eq_ok.1 h
  split at h
  · cases h; simp
  · cases h

omit [Field α] [LinearOrder α] in
theorem Vec.update_length {f : α → α → α} {x y z : List α} (h : Vec.update f x y = .ok z) : z.length = x.length := by
  unfold Vec.update at h
  obtain ⟨_, _, h⟩ := bind_eq_ok.1 h
  refine forUp_length ?_ h
  intro i u v h
  obtain ⟨_, _, h⟩ := bind_eq_ok.1 h
  obtain ⟨_, _, h⟩ := bind_eq_ok.1 h
  exact vwr_length h

omit [Field α] [LinearOrder α] in
theorem Vec.update3_length {f : α → α → α → α} {n : Int} {x y z u : List α} (h : Vec.update3 n f x y z = .ok u) : u.length = x.length := by
  unfold Vec.update3 at h
  refine forUp_length ?_ h
  intro i u v h
  obtain ⟨_, _, h⟩ := bind_eq_ok.1 h
  obtain ⟨_, _, h⟩ := bind_eq_ok.1 h
  obtain ⟨_, _, h⟩ := bind_eq_ok.1 h
  exact vwr_length h

theorem Minres.divVec_length {v u : List α} {c : α} (h : Minres.divVec v c = .ok u) : u.length = v.length := by
  unfold Minres.divVec at h
  obtain ⟨_, _, h⟩ := bind_eq_ok.1 h
  cases h
  simp

/-- The lengths of the work vectors that stay. -/
def MinresState.Fit (s : MinresState α) (n : Nat) : Prop := s.w0.length = n ∧ s.w1.length = n ∧ s.v0.length = n ∧ s.v1.length = n

theorem Minres.step_fit (S : Minres α) (tol : α) (s : MinresState α) (n : Nat) (hs : s.Fit n) (t) (h : S.step tol s = .ok t) : t.2.Fit n := by
  obtain ⟨h1, h2, h3, h4⟩ := hs
  unfold Minres.step at h
  obtain ⟨v1, e1, h⟩ := bind_eq_ok.1 h
  obtain ⟨q, _, h⟩ := bind_eq_ok.1 h
  obtain ⟨al, _, h⟩ := bind_eq_ok.1 h
  obtain ⟨v0, e2, h⟩ := bind_eq_ok.1 h
  obtain ⟨_, _, h⟩ := bind_eq_ok.1 h
  obtain ⟨_, _, h⟩ := bind_eq_ok.1 h
  obtain ⟨_, _, h⟩ := bind_eq_ok.1 h
  obtain ⟨_, _, h⟩ := bind_eq_ok.1 h
  obtain ⟨w0, e3, h⟩ := bind_eq_ok.1 h
  obtain ⟨_, _, h⟩ := bind_eq_ok.1 h
  obtain ⟨_, _, h⟩ := bind_eq_ok.1 h
  obtain ⟨_, _, h⟩ := bind_eq_ok.1 h
  cases h
  exact ⟨(Vec.update3_length e3).trans h1, h2, (Vec.update3_length e2).trans h3, (Minres.divVec_length e1).trans h4⟩

theorem Minres.loop_fit (S : Minres α) (tol : α) (n : Nat) : ∀ (fuel : Nat) (k : Int) (s : MinresState α) (t), s.Fit n →
    S.loop tol fuel k s = .ok t → t.2.Fit n := by
  intro fuel
  induction fuel with
  | zero => intro k s t hs h; cases h; exact hs
  | succ fuel ih =>
    intro k s t hs h
    unfold Minres.loop at h
    obtain ⟨u, hu, h⟩ := bind_eq_ok.1 h
    have hf := Minres.step_fit S tol s n hs u hu
    split at h
    · cases h; exact hf
    · exact ih _ _ _ ⟨hf.2.1, hf.1, hf.2.2.2, hf.2.2.1⟩ h

theorem Minres.mult_fit (S : Minres α) (b x : List α) (w : MinresState α) (n : Nat) (hn : S.A.rows = n) (hw : w.Fit n) (t)
    (h : S.mult b x w = .ok t) : t.2.Fit n := by
  unfold Minres.mult at h
  obtain ⟨_, _, h⟩ := bind_eq_ok.1 h
  obtain ⟨_, hb, h⟩ := bind_eq_ok.1 h
  obtain ⟨s, hs, h⟩ := bind_eq_ok.1 h
  refine Minres.loop_fit S _ n _ _ s t ?_ h
  unfold Minres.start at hs
  obtain ⟨q, _, hs⟩ := bind_eq_ok.1 hs
  obtain ⟨v1, hv, hs⟩ := bind_eq_ok.1 hs
  obtain ⟨_, _, hs⟩ := bind_eq_ok.1 hs
  cases hs
  refine ⟨by simp [hw.1], by simp [hw.2.1], by simp [hw.2.2.1], ?_⟩
  have h1 := cassert_ok_iff.1 hb
  have h2 := Vec.update_length hv
  show v1.length = n
  omega

/-- Only the lengths of the work vectors matter. -/
theorem Minres.mult_work (S : Minres α) (hA : S.A.Overwrites) (b x : List α) (w w' : MinresState α) (n : Nat) (hw : w.Fit n)
    (hw' : w'.Fit n) : S.mult b x w = S.mult b x w' := by
  have h : S.start b x w = S.start b x w' := by
    unfold Minres.start
    rw [hA.resize x w.q w'.q, hw.1, hw.2.1, hw.2.2.1, hw'.1, hw'.2.1, hw'.2.2.1]
  unfold Minres.mult
  rw [h]

/-- The lengths of the work vectors that stay. -/
def PminresState.Fit (s : PminresState α) (n : Nat) : Prop := s.w0.length = n ∧ s.w1.length = n ∧ s.v0.length = n ∧ s.v1.length = n

theorem Pminres.step_fit (S : Minres α) (M : Op α) (tol : α) (s : PminresState α) (n : Nat) (hs : s.Fit n) (t)
    (h : Pminres.step S M tol s = .ok t) : t.2.Fit n := by
  obtain ⟨h1, h2, h3, h4⟩ := hs
  unfold Pminres.step at h
  obtain ⟨v1, e1, h⟩ := bind_eq_ok.1 h
  obtain ⟨_, _, h⟩ := bind_eq_ok.1 h
  obtain ⟨q, _, h⟩ := bind_eq_ok.1 h
  obtain ⟨al, _, h⟩ := bind_eq_ok.1 h
  obtain ⟨v0, e2, h⟩ := bind_eq_ok.1 h
  obtain ⟨_, _, h⟩ := bind_eq_ok.1 h
  obtain ⟨_, _, h⟩ := bind_eq_ok.1 h
  obtain ⟨_, _, h⟩ := bind_eq_ok.1 h
  obtain ⟨_, _, h⟩ := bind_eq_ok.1 h
  obtain ⟨_, _, h⟩ := bind_eq_ok.1 h
  obtain ⟨w0, e3, h⟩ := bind_eq_ok.1 h
  obtain ⟨_, _, h⟩ := bind_eq_ok.1 h
  obtain ⟨_, _, h⟩ := bind_eq_ok.1 h
  obtain ⟨_, _, h⟩ := bind_eq_ok.1 h
  cases h
  exact ⟨(Vec.update3_length e3).trans h1, h2, (Vec.update3_length e2).trans h3, (Minres.divVec_length e1).trans h4⟩

theorem Pminres.loop_fit (S : Minres α) (M : Op α) (tol : α) (n : Nat) : ∀ (fuel : Nat) (k : Int) (s : PminresState α) (t), s.Fit n →
    Pminres.loop S M tol fuel k s = .ok t → t.2.Fit n := by
  intro fuel
  induction fuel with
  | zero => intro k s t hs h; cases h; exact hs
  | succ fuel ih =>
    intro k s t hs h
    unfold Pminres.loop at h
    obtain ⟨u, hu, h⟩ := bind_eq_ok.1 h
    have hf := Pminres.step_fit S M tol s n hs u hu
    split at h
    · cases h; exact hf
    · exact ih _ _ _ ⟨hf.2.1, hf.1, hf.2.2.2, hf.2.2.1⟩ h

theorem Pminres.mult_fit (S : Minres α) (M : Op α) (b x : List α) (w : PminresState α) (n : Nat) (hn : S.A.rows = n) (hw : w.Fit n) (t)
    (h : Pminres.mult S M b x w = .ok t) : t.2.Fit n := by
  unfold Pminres.mult at h
  obtain ⟨_, hb, h⟩ := bind_eq_ok.1 h
  obtain ⟨_, _, h⟩ := bind_eq_ok.1 h
  obtain ⟨s, hs, h⟩ := bind_eq_ok.1 h
  refine Pminres.loop_fit S M _ n _ _ s t ?_ h
  unfold Pminres.start at hs
  obtain ⟨q, _, hs⟩ := bind_eq_ok.1 hs
  obtain ⟨v1, hv, hs⟩ := bind_eq_ok.1 hs
  obtain ⟨_, _, hs⟩ := bind_eq_ok.1 hs
  obtain ⟨_, _, hs⟩ := bind_eq_ok.1 hs
  cases hs
  refine ⟨by simp [hw.1], by simp [hw.2.1], by simp [hw.2.2.1], ?_⟩
  have h1 := cassert_ok_iff.1 hb
  have h2 := Vec.update_length hv
  show v1.length = n
  omega

/-- Only the lengths of the work vectors matter. -/
theorem Pminres.mult_work (S : Minres α) (M : Op α) (hA : S.A.Overwrites) (hM : M.Overwrites) (b x : List α) (w w' : PminresState α) (n : Nat)
    (hw : w.Fit n) (hw' : w'.Fit n) : Pminres.mult S M b x w = Pminres.mult S M b x w' := by
  have h : Pminres.start S M b x w = Pminres.start S M b x w' := by
    unfold Pminres.start
    rw [hA.resize x w.q w'.q, hw.1, hw.2.1, hw.2.2.1, hw'.1, hw'.2.1, hw'.2.2.1]
    simp only [hM.resize _ w.u1 w'.u1]
  unfold Pminres.mult
  rw [h]

/-- Without an operator, or with an inner product and an operator that, if it still exists, has the size `n`. -/
def SolverBase.Sized (m : OpMem α) (o : SolverBase α) (n : Nat) : Prop :=
  o.A = .null ∨ ∃ k d, o.A = .to k ∧ o.dot = some d ∧ k < m.length ∧ ∀ A, m.get k = .ok A → A.rows = n ∧ A.cols = n

omit [Field α] [LinearOrder α] in
theorem Mem.get_lt {C : Type} {m : Mem C} {k : Nat} {c : C} (h : m.get k = .ok c) : k < m.length := by
  have := Mem.get_some h
  exact (List.getElem?_eq_some_iff.1 this).1

omit [Field α] [LinearOrder α] in
theorem SolverBase.Sized.make {m : OpMem α} {a : SolverArgs α} {o : SolverBase α} (h : SolverBase.make m a = .ok o) :
    ∃ n : Nat, ∃ A, m.get a.A = .ok A ∧ A.rows = n ∧ o.Sized m n := by
  obtain ⟨A, hA, hs, h0, rfl⟩ := SolverBase.make_ok h
  refine ⟨A.rows.toNat, A, hA, by omega, .inr ⟨_, _, rfl, rfl, Mem.get_lt hA, ?_⟩⟩
  intro B hB
  rw [hA] at hB
  cases hB
  omega

omit [Field α] [LinearOrder α] in
theorem SolverBase.Sized.set {m : OpMem α} {o o' : SolverBase α} {u : SolverChange α} {n : Nat} (ho : o.Sized m n) (h : o.set m u = .ok o') :
    o'.Sized m n := by
  obtain ⟨hd, h | ⟨k, j, A, B, hj, hB, hk, hA, h1, h2⟩⟩ := SolverBase.set_ok h
  · rcases ho with ho | ⟨k, d, e1, e2, e3⟩
    · exact .inl (h.trans ho)
    · exact .inr ⟨k, d, h.trans e1, hd.trans e2, e3⟩
  · rcases ho with ho | ⟨k', d, e1, e2, e3, e4⟩
    · rw [ho] at hj; cases hj
    · rw [e1] at hj
      cases hj
      refine .inr ⟨k, d, hk, hd.trans e2, Mem.get_lt hA, ?_⟩
      intro A' hA'
      rw [hA] at hA'
      cases hA'
      rw [h1, h2]
      exact e4 B hB

/-- The statement keeps the sizes of operators. -/
def IterStmt.Keeps : IterStmt α → Prop
  | .changeOp _ f => ∀ A, (f A).rows = A.rows ∧ (f A).cols = A.cols
  | _ => True

omit [Field α] [LinearOrder α] in
theorem KeepsSizes.all {prog : List (IterStmt α)} (h : KeepsSizes prog) : ∀ s ∈ prog, s.Keeps := by
  intro s hs
  have := h s hs
  cases s <;> first | exact this | trivial

omit [Field α] [LinearOrder α] in
theorem SolverBase.Sized.mem {V : Type} {S : OpMem α → LifeVals V (SolverArgs α) (SolverChange α)} {w w' : OpMem α × List (Option V)}
    {s : IterStmt α} (hg : s.Keeps) (hn : ∀ t, s ≠ .solver t) (h : valStep S w s = .ok w') {o : SolverBase α} {n : Nat} (ho : o.Sized w.1 n) :
    o.Sized w'.1 n := by
  rcases ho with ho | ⟨k, d, e1, e2, e3, e4⟩
  · exact .inl ho
  · refine .inr ⟨k, d, e1, e2, ?_⟩
    cases s with
    | newOp B =>
      cases h
      refine ⟨by simp; omega, ?_⟩
      intro A hA
      refine e4 A ?_
      unfold Mem.get at hA ⊢
      rwa [List.getElem?_append_left e3] at hA
    | changeOp j f =>
      obtain ⟨B, hB, h⟩ := bind_eq_ok.1 h
      cases h
      refine ⟨by simpa using e3, ?_⟩
      intro A hA
      have hA := Mem.get_some hA
      by_cases hj : j = k
      · subst hj
        rw [List.getElem?_set_self e3] at hA
        cases hA
        obtain ⟨r1, r2⟩ := hg B
        rw [r1, r2]
        exact e4 B hB
      · rw [List.getElem?_set_ne hj] at hA
        refine e4 A ?_
        unfold Mem.get
        rw [hA]
    | freeOp j =>
      obtain ⟨B, hB, h⟩ := bind_eq_ok.1 h
      cases h
      refine ⟨by simpa using e3, ?_⟩
      intro A hA
      have hA := Mem.get_some hA
      by_cases hj : j = k
      · subst hj
        rw [List.getElem?_set_self e3] at hA
        cases hA
      · rw [List.getElem?_set_ne hj] at hA
        refine e4 A ?_
        unfold Mem.get
        rw [hA]
    | solver t => exact absurd rfl (hn t)

theorem Solver.work_len {A : Op α} {v : List α} {n : Nat} (hA : A.rows = n) (h : Solver.work A = .ok v) : v.length = n := by
  unfold Solver.work at h
  rw [hA, mkVec_nat] at h
  cases h
  simp

/-- The work vectors have the length the operator asks for. -/
def MinresObj.Fits (m : OpMem α) (o : MinresObj α) : Prop :=
  ∃ n, o.base.Sized m n ∧ (o.base.A = .null ∨ (o.w0.length = n ∧ o.w1.length = n ∧ o.v0.length = n ∧ o.v1.length = n))

/-- **C102**: in every program that does not resize an operator in place, and for every MINRES solver in it: either it has no operator,
and `Mult` stops at the check, or it refers to an operator.  If that operator has been destroyed, `Mult` is undefined behaviour.
Otherwise, if the operator overwrites its output, `Mult` does what a solver for the operator as it is now would do, with whatever work
vectors of the right length. -/
theorem C102_minres (sqrt : α → α) (prog : List (IterStmt α)) (hk : KeepsSizes prog) (w : SolverWorld α (MinresObj α))
    (hr : SolverWorld.run (MinresObj.cls sqrt) prog ⟨[], []⟩ = .ok w)
    (i : Nat) (o : MinresObj α) (ho : w.objs[i]? = some (some o)) (b x : List α) :
    (o.base.A = .null ∧ o.solve sqrt w.ops b x = .error .assertFail) ∨ ∃ k d, o.base.A = .to k ∧ o.base.dot = some d ∧
      (¬ w.ops.Live k → o.solve sqrt w.ops b x = .error .undefinedBehaviour) ∧
      (∀ A, w.ops.get k = .ok A → A.Overwrites → ∀ work : MinresState α, work.Fit A.rows.toNat →
        (o.solve sqrt w.ops b x).map (fun t => (t.1.base.numIter, t.2))
          = (Minres.mult ⟨A, o.base.maxIter, o.base.relTol, o.base.absTol, sqrt, d⟩ b x work).map (fun t => (t.1, t.2.x))) := by
  have hv := C102_minres_values (α := α) sqrt prog
  rw [hr] at hv
  have hb : o.Fits w.ops := by
    refine val_run_all _ (fun m (o : MinresObj α) => o.Fits m) IterStmt.Keeps ?_ ?_ ?_ ?_ ?_ prog hk.all ([], []) w.pair
      (by simp) hv.symm o (List.mem_of_getElem? ho)
    · intro m a v h
      change MinresObj.make m a = .ok v at h
      unfold MinresObj.make at h
      obtain ⟨base, hbase, h⟩ := bind_eq_ok.1 h
      obtain ⟨n, A, hA, hn, hs⟩ := SolverBase.Sized.make hbase
      rw [hA, ok_bind] at h
      obtain ⟨_, h1, h⟩ := bind_eq_ok.1 h
      obtain ⟨_, h2, h⟩ := bind_eq_ok.1 h
      obtain ⟨_, h3, h⟩ := bind_eq_ok.1 h
      obtain ⟨_, h4, h⟩ := bind_eq_ok.1 h
      obtain ⟨_, _, h⟩ := bind_eq_ok.1 h
      cases h
      exact ⟨n, hs, .inr ⟨Solver.work_len hn h1, Solver.work_len hn h2, Solver.work_len hn h3, Solver.work_len hn h4⟩⟩
    · intro m v u v' hv h
      change MinresObj.update sqrt m v u = .ok v' at h
      obtain ⟨n, hs, hl⟩ := hv
      have hset : (do let base ← v.base.set m u; .ok { v with base := base } : Res (MinresObj α)) = .ok v' → v'.Fits m := by
        intro h
        obtain ⟨base, hbase, h⟩ := bind_eq_ok.1 h
        cases h
        refine ⟨n, hs.set hbase, ?_⟩
        rcases hl with hl | hl
        · left
          obtain ⟨_, h | ⟨_, _, _, _, hj, _⟩⟩ := SolverBase.set_ok hbase
          · exact h.trans hl
          · rw [hl] at hj; cases hj
        · exact .inr hl
      cases u with
      | mult b x =>
        obtain ⟨t, ht, h⟩ := bind_eq_ok.1 h
        cases h
        unfold MinresObj.solve at ht
        rcases hs with hs | ⟨k, d, e1, e2, e3, e4⟩
        · rw [SolverBase.target_null _ hs] at ht; cases ht
        · rw [SolverBase.target_to _ e1] at ht
          obtain ⟨A, hA, ht⟩ := bind_eq_ok.1 ht
          obtain ⟨d', _, ht⟩ := bind_eq_ok.1 ht
          obtain ⟨s, hm, ht⟩ := bind_eq_ok.1 ht
          cases ht
          rcases hl with hl | hl
          · rw [e1] at hl; cases hl
          · refine ⟨n, .inr ⟨k, d, e1, e2, e3, e4⟩, .inr ?_⟩
            exact Minres.mult_fit _ b x _ n (e4 A hA).1 (by exact hl) s hm
      | operator k => exact hset h
      | maxIter k => exact hset h
      | relTol k => exact hset h
      | absTol k => exact hset h
      | verbose k => exact hset h
      | precond k => exact hset h
    · intro m v v' hv h
      simp only [plainVals] at h
      split at h
      · cases h; exact hv
      · cases h
    · intro m; exact ⟨0, .inl rfl, .inl rfl⟩
    · rintro w w' s hg hn h v ⟨n, h1, h2⟩
      exact ⟨n, h1.mem hg hn h, h2⟩
  obtain ⟨n, hb | ⟨k, d, hk, hd, hlt, hA⟩, hl⟩ := hb
  · refine .inl ⟨hb, ?_⟩
    unfold MinresObj.solve
    rw [SolverBase.target_null _ hb]
    rfl
  · refine .inr ⟨k, d, hk, hd, ?_, ?_⟩
    · intro hdead
      unfold MinresObj.solve
      rw [SolverBase.target_to _ hk, Mem.get_dead hdead]
      rfl
    · intro A hA' hAo work hwork
      rw [(hA A hA').1, Int.toNat_natCast] at hwork
      rcases hl with hl | hl
      · rw [hk] at hl; cases hl
      have hw := Minres.mult_work ⟨A, o.base.maxIter, o.base.relTol, o.base.absTol, sqrt, d⟩ hAo b x work
        ⟨x, o.w0, o.w1, o.v0, o.v1, o.q, 0, 0, 0, 0, 0, 0, 0⟩ n hwork hl
      rw [hw]
      unfold MinresObj.solve
      rw [SolverBase.target_to _ hk, hA', ok_bind]
      simp only [ok_bind, SolverBase.callee, hd]
      cases Minres.mult _ b x _ <;> rfl

/-- The work vectors have the length the operator asks for. -/
def PminresObj.Fits (m : OpMem α) (o : PminresObj α) : Prop :=
  ∃ n, o.base.Sized m n ∧ (o.base.A = .null ∨ (o.w0.length = n ∧ o.w1.length = n ∧ o.v0.length = n ∧ o.v1.length = n))

/-- **C102**: the same for preconditioned MINRES solvers; the preconditioner is the operator `M_` points to. -/
theorem C102_pminres (sqrt : α → α) (prog : List (IterStmt α)) (hk : KeepsSizes prog) (w : SolverWorld α (PminresObj α))
    (hr : SolverWorld.run (PminresObj.cls sqrt) prog ⟨[], []⟩ = .ok w)
    (i : Nat) (o : PminresObj α) (ho : w.objs[i]? = some (some o)) (b x : List α) :
    (o.base.A = .null ∧ o.solve sqrt w.ops b x = .error .assertFail) ∨ ∃ k d, o.base.A = .to k ∧ o.base.dot = some d ∧
      (¬ w.ops.Live k → o.solve sqrt w.ops b x = .error .undefinedBehaviour) ∧
      (∀ A M, w.ops.get k = .ok A → PrecIs w.ops o.M (some M) → A.Overwrites → M.Overwrites →
        ∀ work : PminresState α, work.Fit A.rows.toNat →
        (o.solve sqrt w.ops b x).map (fun t => (t.1.base.numIter, t.2))
          = (Pminres.mult ⟨A, o.base.maxIter, o.base.relTol, o.base.absTol, sqrt, d⟩ M b x work).map (fun t => (t.1, t.2.x))) := by
  have hv := C102_pminres_values (α := α) sqrt prog
  rw [hr] at hv
  have hb : o.Fits w.ops := by
    refine val_run_all _ (fun m (o : PminresObj α) => o.Fits m) IterStmt.Keeps ?_ ?_ ?_ ?_ ?_ prog hk.all ([], []) w.pair
      (by simp) hv.symm o (List.mem_of_getElem? ho)
    · intro m a v h
      change PminresObj.make m a = .ok v at h
      unfold PminresObj.make at h
      obtain ⟨base, hbase, h⟩ := bind_eq_ok.1 h
      obtain ⟨n, A, hA, hn, hs⟩ := SolverBase.Sized.make hbase
      rw [hA, ok_bind] at h
      obtain ⟨_, h1, h⟩ := bind_eq_ok.1 h
      obtain ⟨_, h2, h⟩ := bind_eq_ok.1 h
      obtain ⟨_, h3, h⟩ := bind_eq_ok.1 h
      obtain ⟨_, h4, h⟩ := bind_eq_ok.1 h
      obtain ⟨_, _, h⟩ := bind_eq_ok.1 h
      obtain ⟨_, _, h⟩ := bind_eq_ok.1 h
      cases hM : a.M with
      | none => rw [hM] at h; cases h
      | some k =>
        rw [hM] at h
        obtain ⟨_, _, h⟩ := bind_eq_ok.1 h
        obtain ⟨_, _, h⟩ := bind_eq_ok.1 h
        obtain ⟨_, _, h⟩ := bind_eq_ok.1 h
        cases h
        exact ⟨n, hs, .inr ⟨Solver.work_len hn h1, Solver.work_len hn h2, Solver.work_len hn h3, Solver.work_len hn h4⟩⟩
    · intro m v u v' hv h
      change PminresObj.update sqrt m v u = .ok v' at h
      obtain ⟨n, hs, hl⟩ := hv
      have hset : (do let base ← v.base.set m u; .ok { v with base := base } : Res (PminresObj α)) = .ok v' → v'.Fits m := by
        intro h
        obtain ⟨base, hbase, h⟩ := bind_eq_ok.1 h
        cases h
        refine ⟨n, hs.set hbase, ?_⟩
        rcases hl with hl | hl
        · left
          obtain ⟨_, h | ⟨_, _, _, _, hj, _⟩⟩ := SolverBase.set_ok hbase
          · exact h.trans hl
          · rw [hl] at hj; cases hj
        · exact .inr hl
      cases u with
      | mult b x =>
        obtain ⟨t, ht, h⟩ := bind_eq_ok.1 h
        cases h
        unfold PminresObj.solve at ht
        rcases hs with hs | ⟨k, d, e1, e2, e3, e4⟩
        · rw [SolverBase.target_null _ hs] at ht; cases ht
        · rw [SolverBase.target_to _ e1] at ht
          obtain ⟨A, hA, ht⟩ := bind_eq_ok.1 ht
          obtain ⟨_, _, ht⟩ := bind_eq_ok.1 ht
          obtain ⟨_, _, ht⟩ := bind_eq_ok.1 ht
          obtain ⟨_, _, ht⟩ := bind_eq_ok.1 ht
          obtain ⟨_, _, ht⟩ := bind_eq_ok.1 ht
          obtain ⟨_, _, ht⟩ := bind_eq_ok.1 ht
          obtain ⟨s, hm, ht⟩ := bind_eq_ok.1 ht
          cases ht
          rcases hl with hl | hl
          · rw [e1] at hl; cases hl
          · refine ⟨n, .inr ⟨k, d, e1, e2, e3, e4⟩, .inr ?_⟩
            exact Pminres.mult_fit _ _ b x _ n (e4 A hA).1 (by exact hl) s hm
      | operator k => exact hset h
      | maxIter k => exact hset h
      | relTol k => exact hset h
      | absTol k => exact hset h
      | verbose k => exact hset h
      | precond k => exact hset h
    · intro m v v' hv h
      simp only [plainVals] at h
      split at h
      · cases h; exact hv
      · cases h
    · intro m; exact ⟨0, .inl rfl, .inl rfl⟩
    · rintro w w' s hg hn h v ⟨n, h1, h2⟩
      exact ⟨n, h1.mem hg hn h, h2⟩
  obtain ⟨n, hb | ⟨k, d, hk, hd, hlt, hA⟩, hl⟩ := hb
  · refine .inl ⟨hb, ?_⟩
    unfold PminresObj.solve
    rw [SolverBase.target_null _ hb]
    rfl
  · refine .inr ⟨k, d, hk, hd, ?_, ?_⟩
    · intro hdead
      unfold PminresObj.solve
      rw [SolverBase.target_to _ hk, Mem.get_dead hdead]
      rfl
    · rintro A M hA' ⟨j, hj, hM⟩ hAo hMo work hwork
      rw [(hA A hA').1, Int.toNat_natCast] at hwork
      rcases hl with hl | hl
      · rw [hk] at hl; cases hl
      have hw := Pminres.mult_work ⟨A, o.base.maxIter, o.base.relTol, o.base.absTol, sqrt, d⟩ M hAo hMo b x work
        ⟨x, o.w0, o.w1, o.v0, o.v1, o.u1, o.q, 0, 0, 0, 0, 0, 0, 0⟩ n hwork hl
      rw [hw]
      unfold PminresObj.solve
      rw [SolverBase.target_to _ hk, hA', ok_bind, hj, cassert_true (by simp), ok_bind]
      by_cases h1 : (b.length : Int) = A.rows
      · by_cases h2 : (x.length : Int) = A.cols
        · rw [cassert_true h1, cassert_true h2]
          simp only [ok_bind, SolverBase.callee, hd]
          show (Except.map _ (w.ops.get j >>= _)) = _
          rw [hM]
          simp only [ok_bind]
          cases Pminres.mult _ M b x _ <;> rfl
        · rw [cassert_true h1, cassert_false h2]
          unfold Pminres.mult
          rw [cassert_true h1, cassert_false h2]
          rfl
      · rw [cassert_false h1]
        unfold Pminres.mult
        rw [cassert_false h1]
        rfl

/-! ## What cannot be done -/

omit [Field α] [LinearOrder α] in
/-- **C102**: `SetOperator` looks at the old operator: if there is none, or if it has been destroyed, the call is undefined behaviour.  So
a default-constructed or moved-from solver can only be brought back by assigning another solver to it. -/
theorem C102_set_operator (m : OpMem α) (o : SolverBase α) (k : Nat) (A : Op α) (hA : m.get k = .ok A)
    (ho : o.A = .null ∨ ∃ j, o.A = .to j ∧ ¬ m.Live j) : o.setOperator m k = .error .undefinedBehaviour := by
  unfold SolverBase.setOperator
  rw [hA, ok_bind]
  rcases ho with ho | ⟨j, hj, hd⟩
  · rw [ho]; rfl
  · rw [hj]
    show (m.get j >>= _) = _
    rw [Mem.get_dead hd]
    rfl

/-- **C102**: what a move leaves behind, and what the default constructors make: every call of `Mult` stops at the check, every
`SetOperator` is undefined behaviour, and the sizes are zero. -/
theorem C102_left (sqrt : α → α) (m : OpMem α) (k : Nat) (A : Op α) (hA : m.get k = .ok A) (b x : List α) :
    (PcgObj.blank : PcgObj α).solve m b x = .error .assertFail ∧
    (MinresObj.blank : MinresObj α).solve sqrt m b x = .error .assertFail ∧
    (PminresObj.blank : PminresObj α).solve sqrt m b x = .error .assertFail ∧
    PcgObj.update m (PcgObj.blank : PcgObj α) (.operator k) = .error .undefinedBehaviour ∧
    MinresObj.update sqrt m (MinresObj.blank : MinresObj α) (.operator k) = .error .undefinedBehaviour ∧
    PminresObj.update sqrt m (PminresObj.blank : PminresObj α) (.operator k) = .error .undefinedBehaviour := by
  have h := C102_set_operator m (SolverBase.blank : SolverBase α) k A hA (.inl rfl)
  refine ⟨rfl, rfl, rfl, ?_, ?_, ?_⟩
  · show (SolverBase.setOperator m SolverBase.blank k >>= _) = _
    rw [h]; rfl
  · show (SolverBase.setOperator m SolverBase.blank k >>= _) = _
    rw [h]; rfl
  · show (SolverBase.setOperator m SolverBase.blank k >>= _) = _
    rw [h]; rfl

/-- **C102**: a PCG solver whose preconditioner has been destroyed: `Mult` with vectors of the right size is undefined behaviour. -/
theorem C102_precond_freed (m : OpMem α) (o : PcgObj α) (k j : Nat) (A : Op α) (hk : o.base.A = .to k) (hA : m.get k = .ok A)
    (hj : o.M = .to j) (hd : ¬ m.Live j) (b x : List α) (hb : (b.length : Int) = A.rows) (hx : (x.length : Int) = A.rows) :
    o.solve m b x = .error .undefinedBehaviour := by
  unfold PcgObj.solve
  rw [SolverBase.target_to _ hk, hA, ok_bind, cassert_true hx, ok_bind, cassert_true hb, ok_bind]
  unfold PcgObj.prec
  rw [hj]
  show ((m.get j >>= _) >>= _) = _
  rw [Mem.get_dead hd]
  rfl

end

/-! ## Examples -/

/-- `diag(2, 4)`, `diag(1, 8)` and the operators made from them. -/
def exSolverA : Op ℚ := (Csr.ofDiag [(2 : ℚ), 4]).toOp

/-- Another matrix of the same size. -/
def exSolverB : Op ℚ := (Csr.ofDiag [(1 : ℚ), 8]).toOp

/-- A bigger matrix. -/
def exSolverC : Op ℚ := (Csr.ofDiag [(1 : ℚ), 2, 4]).toOp

/-- The arguments of a solver for operator `0`. -/
def exSolverArgs : SolverArgs ℚ := ⟨0, none, 10, 0, 1 / 1000, false, Vec.inner⟩

/-- What the solvers of a program compute. -/
def exPcgRuns (prog : List (IterStmt ℚ)) (b x : List ℚ) : Option (List (Option (Res (List ℚ)))) :=
  (SolverWorld.run PcgObj.cls prog ⟨[], []⟩).toOption.map (fun w => w.objs.map (fun o => o.map (fun o => (o.solve w.ops b x).map (·.2))))

/-- The program: a solver, its copy, then the operator changes: both see the change. -/
example : exPcgRuns [.newOp exSolverA, .solver (.make exSolverArgs), .solver (.copy 0), .changeOp 0 (fun _ => exSolverB)] [8, 8] [0, 0]
    = some [some (.ok [8, 1]), some (.ok [8, 1])] := by decide +kernel

/-- A copy given another operator: the original keeps its own; the moved-from solver stops at the check. -/
example : exPcgRuns [.newOp exSolverA, .newOp exSolverB, .solver (.make exSolverArgs), .solver (.copy 0), .solver (.update 1 (.operator 1)),
      .solver (.move 0)] [8, 8] [0, 0]
    = some [some (.error .assertFail), some (.ok [8, 1]), some (.ok [4, 2])] := by decide +kernel

/-- The operator is destroyed. -/
example : exPcgRuns [.newOp exSolverA, .solver (.make exSolverArgs), .freeOp 0] [8, 8] [0, 0] = some [some (.error .undefinedBehaviour)] := by
  decide +kernel

/-- What the MINRES solvers of a program compute, with `sqrt x = x`. -/
def exMinresRuns (prog : List (IterStmt ℚ)) (b x : List ℚ) : Option (List (Option (Res (List ℚ)))) :=
  (SolverWorld.run (MinresObj.cls id) prog ⟨[], []⟩).toOption.map (fun w => w.objs.map (fun o => o.map (fun o => (o.solve id w.ops b x).map (·.2))))

/-- **C102**: why `C102_minres` asks that operators keep their sizes: after the operator has grown, a MINRES solver made before that
reads past its work vectors, and a PCG solver still works. -/
theorem C102_resized :
    exMinresRuns [.newOp exSolverA, .solver (.make exSolverArgs), .changeOp 0 (fun _ => exSolverC)] [1, 2, 4] [0, 0, 0]
      = some [some (.error .assertFail)] ∧
    exPcgRuns [.newOp exSolverA, .solver (.make exSolverArgs), .changeOp 0 (fun _ => exSolverC)] [1, 2, 4] [0, 0, 0]
      = some [some (.ok [1, 1, 1])] := by decide +kernel

example : exSolverA.Overwrites := fun x y z h => (C101_sparse_fresh (Csr.ofDiag [(2 : ℚ), 4]) (by decide +kernel)).1 x y z h

example : KeepsSizes [IterStmt.newOp exSolverA, .solver (.make exSolverArgs), .changeOp 0 (fun A => { A with mult := exSolverB.mult })] := by
  intro s hs
  simp only [List.mem_cons, List.not_mem_nil, or_false] at hs
  rcases hs with rfl | rfl | rfl <;> simp

end Linalg
