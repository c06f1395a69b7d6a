import Verif.Props.ParSolver

/-!
# Preconditioners (C100)
-/

namespace Linalg
open Cpp

variable {α : Type} [Zero α]

namespace SolverObj

theorem make_stands {kind : SolverKind} {m m' : Mem (SCell α)} {A : ParMatVal α} {s : SolverSettings α} {o : SolverObj α}
    (h : make kind m (.all A s) = .ok (m', o)) :
    ∃ t, m.Grown m' t ∧ Stands kind m' o (.works true A s (if SolverVal.keeps kind then some s else none)) t := by
  have k := (lawful id kind).make m (.all A s)
  have e : (cls id kind).make m (.all A s) = make kind m (.all A s) := rfl
  rw [e, h] at k
  cases A with
  | void => cases h
  | full c r w M =>
    have e2 : (SolverVal.vals id kind).make (.all (.full c r w M) s) = (do
          cassert (M.rows = M.cols)
          cassert (M.globalRows = M.globalCols)
          .ok (.works true (.full c r w M) s (if SolverVal.keeps kind then some s else none))) := rfl
    rw [e2] at k
    by_cases h1 : M.rows = M.cols
    · by_cases h2 : M.globalRows = M.globalCols
      · simp only [h1, h2, cassert_true, ok_bind] at k
        obtain ⟨_, _, t, e3, h3, h4⟩ := k
        cases e3
        exact ⟨t, h3, h4⟩
      · simp only [h1, cassert_true, ok_bind, cassert_false h2] at k
        cases k
    · simp only [cassert_false h1] at k
      cases k

omit [Zero α] in
theorem setPrecond_ok {m : Mem (SCell α)} {k : Nat} {cfg : Option (SolverSettings α)} {b : Bool} {pc : Option ((HRole × HFn) × (HRole × HFn) × CPtr)}
    (h : m[k]? = some (some (.solver .pcg cfg b pc))) (f g : HRole × HFn) (p : CPtr) :
    setPrecond m (.to k) f g p = .ok (m.set k (some (.solver .pcg cfg b (some (f, g, p))))) := by
  simp only [setPrecond, Hypre.deref, ok_bind, Mem.get_ok h, Mem.put_ok h]

/-- What `ParCG(A, M)` leaves. -/
theorem makeCg_inv {m m1 : Mem (SCell α)} {A : ParMatVal α} {M o : SolverObj α} {s : SolverSettings α} (h : makeCg m A M s = .ok (m1, o)) :
    ∃ k, m.length ≤ k ∧ o.solver = .to k ∧ Plain .cg o true A s ∧ (∃ c r w B, A = .full c r w B) ∧ o.shell = .null ∧
      m1[k]? = some (some (.solver .pcg (some s) true (some ((.setup, M.setupFn), (.solve, M.solveFn), M.solver)))) ∧
      ∀ j < m.length, m1[j]? = m[j]? := by
  unfold makeCg at h
  obtain ⟨⟨m0, o'⟩, h1, h2⟩ := bind_eq_ok.mp h
  obtain ⟨m2, h3, h4⟩ := bind_eq_ok.mp h2
  cases h4
  obtain ⟨t, g, p, hA, e, k, hk, ho⟩ := make_stands h1
  have hc := (freed_one' ho).1
  have hl := (List.getElem?_eq_some_iff.mp hc).1
  have hm : m.length ≤ k := by
    obtain ⟨-, rfl, -⟩ := ho
    exact ((g.new k).mp (by simp)).1
  rw [hk, setPrecond_ok hc] at h3
  cases h3
  refine ⟨k, hm, hk, p, hA, e, ?_, ?_⟩
  · rw [List.getElem?_set_self hl]
    rfl
  · intro j hj
    rw [List.getElem?_set_ne (by omega)]
    exact g.old j hj

end SolverObj

open SolverObj

/-- **C100, negation.**  `ParCG(A, M)` never applies `M`: for any solver `M`, whatever the library does in place of the preconditioner is a call
of the function that sets `M` up. -/
theorem C100_order (m m1 : Mem (SCell α)) (A : ParMatVal α) (M o : SolverObj α) (s : SolverSettings α) (h : makeCg m A M s = .ok (m1, o))
    (c : Option (HRole × HFn × CPtr)) (hc : applyPrecond m1 o = .ok c) : c = some (.setup, M.setupFn, M.solver) := by
  obtain ⟨k, -, hk, -, -, -, h5, -⟩ := makeCg_inv h
  simp only [applyPrecond, hk, Hypre.deref, ok_bind, Mem.get_ok h5] at hc
  obtain ⟨_, -, h2⟩ := bind_eq_ok.mp hc
  cases h2
  rfl

/-- **C100, negation.**  For a `BoomerAMG` or a `ParaSails` that was just constructed, this call is made and goes well: in each pass the library sets
it up again.  It is never solved with. -/
theorem C100_again (kind : SolverKind) (hk : kind = .boomer ∨ kind = .sails) (m0 m m1 : Mem (SCell α)) (A B : ParMatVal α) (M o : SolverObj α)
    (s t : SolverSettings α) (hM : make kind m0 (.all B t) = .ok (m, M)) (h : makeCg m A M s = .ok (m1, o)) :
    ∃ l j, applyPrecond m1 o = .ok (some (.setup, .lib l, .to j)) ∧ M.solver = .to j ∧ M.mult kind m1 = .ok (B, some t) ∧ o.mult .cg m1 = .ok (A, some s) := by
  obtain ⟨k, hk', ho, ⟨p1, p2, p3, p4, p5, p6, p7⟩, -, -, h5, h6⟩ := makeCg_inv h
  obtain ⟨u, -, ⟨q1, q2, q3, q4, q5, q6, q7⟩, -, hw⟩ := make_stands hM
  have hcg : o.mult .cg m1 = .ok (A, some s) := by
    simp [mult, p1, p7, fns, callSolve, ok_bind, ho, Hypre.deref, Mem.get_ok h5, p2]
  have hl : ∃ l, libOf kind = some l ∧ (fns kind).2.2.1 = .lib l := by rcases hk with rfl | rfl <;> exact ⟨_, rfl, rfl⟩
  obtain ⟨l, hl, hf⟩ := hl
  refine ⟨l, ?_⟩
  rcases hk with rfl | rfl
  all_goals
    cases hl
    obtain ⟨-, j, hj, hown⟩ := hw
    have hc := (freed_one' hown).1
    rw [← h6 j (List.getElem?_eq_some_iff.mp hc).1] at hc
    refine ⟨j, ?_, hj, ?_, hcg⟩
    · simp only [applyPrecond, ho, Hypre.deref, ok_bind, Mem.get_ok h5, q6, fns, hj, callSetup, Mem.get_ok hc, Mem.put_ok hc, if_true]
      simp [ok_bind]
    · simp [mult, q1, q7, fns, callSolve, ok_bind, hj, Hypre.deref, Mem.get_ok hc, q2, SolverVal.keeps]

/-- **C100.**  What is passed is only a pointer: once the preconditioner is destroyed, the next pass has undefined behaviour. -/
theorem C100_dangling (kind : SolverKind) (hk : kind = .boomer ∨ kind = .sails) (m0 m m1 m2 : Mem (SCell α)) (A B : ParMatVal α) (M o : SolverObj α)
    (s t : SolverSettings α) (hM : make kind m0 (.all B t) = .ok (m, M)) (h : makeCg m A M s = .ok (m1, o)) (hd : destroy kind m1 M = .ok m2) :
    applyPrecond m2 o = .error .undefinedBehaviour := by
  obtain ⟨k, hk', ho, ⟨p1, p2, p3, p4, p5, p6, p7⟩, -, -, h5, h6⟩ := makeCg_inv h
  obtain ⟨u, -, ⟨q1, q2, q3, q4, q5, q6, q7⟩, -, hw⟩ := make_stands hM
  rcases hk with rfl | rfl
  all_goals
    obtain ⟨-, j, hj, hown⟩ := hw
    have hc := (freed_one' hown).1
    have hlt := (List.getElem?_eq_some_iff.mp hc).1
    rw [← h6 j hlt] at hc
    have hl1 := (List.getElem?_eq_some_iff.mp hc).1
    simp [destroy, q5, fns, callDestroy, ok_bind, hj, Hypre.deref, Mem.get_ok hc, Mem.free_ok hc] at hd
    subst hd
    have h5' : (m1.set j none)[k]? = some (some (.solver .pcg (some s) true (some ((.setup, M.setupFn), (.solve, M.solveFn), M.solver)))) := by
      rw [List.getElem?_set_ne (by omega)]; exact h5
    have hn : Mem.get (m1.set j none) j = .error .undefinedBehaviour := by
      simp [Mem.get, hl1]
    simp only [applyPrecond, ho, Hypre.deref, ok_bind, Mem.get_ok h5', q6, fns, hj, callSetup, hn]
    rfl

/-- **C100.**  Moving the preconditioner, even destroying what is left behind, does not matter. -/
theorem C100_moved (r : Csr α → Csr α) (kind : SolverKind) (hk : kind = .boomer ∨ kind = .sails) (m : Mem (SCell α)) (M o : SolverObj α) :
    let b := (cls r kind).blank m
    let x := (cls r kind).swap b.2 M
    x.1 = M ∧ ∃ m', (cls r kind).destroy b.1 x.2 = .ok m' ∧ applyPrecond m' o = applyPrecond m o := by
  rcases hk with rfl | rfl
  all_goals exact ⟨rfl, m, rfl, rfl⟩

/-- **C100.**  `EnableDiagScaling` passes its two functions the right way round: the library applies the scaling; the settings stay. -/
theorem C100_diag_partial (m m1 : Mem (SCell α)) (A : ParMatVal α) (o : SolverObj α) (s : SolverSettings α) (h : make .cg m (.all A s) = .ok (m1, o)) :
    ∃ m2, enableDiag m1 o = .ok m2 ∧ applyPrecond m2 o = .ok (some (.solve, .diag, .null)) ∧ o.mult .cg m2 = .ok (A, some s) ∧
      ∃ m3, destroy .cg m2 o = .ok m3 := by
  obtain ⟨t, g, ⟨p1, p2, p3, p4, p5, p6, p7⟩, hA, e, k, hk, ho⟩ := make_stands h
  have hc := (freed_one' ho).1
  have hl := (List.getElem?_eq_some_iff.mp hc).1
  have h5 : (m1.set k (some (SCell.solver .pcg (some s) true (some ((.solve, .diag), (.setup, .diag), .null)))))[k]? =
      some (some (SCell.solver .pcg (some s) true (some ((.solve, .diag), (.setup, .diag), .null)))) := List.getElem?_set_self hl
  refine ⟨_, by unfold enableDiag; rw [hk, setPrecond_ok hc], ?_, ?_, ?_⟩
  · simp only [applyPrecond, hk, Hypre.deref, ok_bind, SolverVal.keeps, if_true, Mem.get_ok h5, callSolve]
  · simp [mult, p1, p7, fns, callSolve, ok_bind, hk, Hypre.deref, SolverVal.keeps, Mem.get_ok h5, p2]
  · simp [destroy, p5, fns, callDestroy, ok_bind, hk, Hypre.deref, SolverVal.keeps, Mem.get_ok h5, Mem.free_ok h5]

/-- **C100, negation.**  The copy of a `ParCG` has no preconditioner, and not its tolerance either. -/
theorem C100_copy (r : Csr α → Csr α) (m m1 : Mem (SCell α)) (comm rank : Int) (hc : comm > 0) (hr : rank ≥ 0) (w : Bool) (B : ParMat α) (M o : SolverObj α)
    (s : SolverSettings α) (h : makeCg m (.full comm rank w B) M s = .ok (m1, o)) :
    ∃ m2 o2, (cls r .cg).copy m1 o = .ok (m2, o2) ∧ applyPrecond m2 o2 = .ok none ∧ o2.mult .cg m2 = .ok (o2.A, none) := by
  obtain ⟨k, hk', ho, ⟨p1, p2, p3, p4, p5, p6, p7⟩, -, -, h5, h6⟩ := makeCg_inv h
  refine ⟨m1 ++ [some (.solver .pcg none true none)], ⟨true, SolverVal.again r (.full comm rank w B), some s, .lib .pcg, .lib .pcg, .lib .pcg, .lib .pcg,
    .to m1.length, .null⟩, ?_, ?_, ?_⟩
  · simp [cls, copy, p2, copy_eq, ok_bind, p4, p5, p6, p7, fns, callCreate, p3, copyViews, Mem.alloc, callSetup, Hypre.deref, Mem.get, Mem.put, bind,
      Except.bind, hc, hr]
  · simp [applyPrecond, Hypre.deref, ok_bind, Mem.get]
  · simp [mult, callSolve, Hypre.deref, ok_bind, Mem.get]

/-- A `BoomerAMG` and a `ParCG` that is given it. -/
def C100_pair (kind : SolverKind) : Res (Mem (SCell Int) × SolverObj Int × SolverObj Int) := do
  let (m, M) ← make kind [] (.all (C99_matrix 3) ⟨1, 0, false⟩)
  let (m, o) ← makeCg m (C99_matrix 3) M ⟨50, 1, true⟩
  .ok (m, M, o)

example : (do let x ← C100_pair .boomer; applyPrecond x.1 x.2.2) = .ok (some (.setup, .lib .amg, .to 0)) := by decide +kernel
example : (do let x ← C100_pair .sails; applyPrecond x.1 x.2.2) = .ok (some (.setup, .lib .sails, .to 0)) := by decide +kernel
example : (do let x ← C100_pair .diag; applyPrecond x.1 x.2.2) = .ok (some (.setup, .diag, .null)) := by decide +kernel
example : (do let x ← C100_pair .boomer; let m ← destroy .boomer x.1 x.2.1; applyPrecond m x.2.2) = .error .undefinedBehaviour := by decide +kernel
example : (do let x ← C100_pair .boomer; let m ← enableDiag x.1 x.2.2; applyPrecond m x.2.2) = .ok (some (.solve, .diag, .null)) := by decide +kernel
example : (do let x ← C100_pair .boomer; let y ← copy id .cg x.1 x.2.2; applyPrecond y.1 y.2) = .ok none := by decide +kernel

end Linalg
