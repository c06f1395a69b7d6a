import Verif.Proof.Plain
import Verif.Props.ParSolver
import Verif.Spec.SolverObj

/-!
# Programs with solvers and operators
-/

namespace Linalg
open Cpp

variable {α O V : Type}

/-- A class that copies and swaps whole objects takes every step as the values do. -/
theorem PlainCls.step_eq {A U : Type} (K : PlainCls O A U) (copies : O → Bool)
    (hc : ∀ o, K.copy o = if copies o then .ok o else .error .assertFail) (hs : ∀ o p, K.swap o p = (p, o)) (w : List (Option O)) (s : LifeStmt A U) :
    K.step w s = (plainVals K.make copies K.blank K.update).step w s := by
  apply PlainCls.Both.eq
  apply PlainCls.step_both (R := fun o v => o = v)
  · constructor
    · intro a
      simp only [plainVals, Outcome]
      cases K.make a <;> rfl
    · rintro o _ rfl
      simp only [plainVals, hc o, Outcome]
      cases copies o <;> rfl
    · rfl
    · rintro o _ p _ rfl rfl
      rw [hs]
      exact ⟨rfl, rfl⟩
    · intro v; rfl
  · induction w with
    | nil => exact .nil
    | cons o w ih =>
      refine .cons ?_ ih
      cases o <;> trivial
  · rintro i u - o _ rfl
    simp only [plainVals, Outcome]
    cases K.update o u <;> rfl

/-- The world as a pair. -/
def SolverWorld.pair (w : SolverWorld α O) : OpMem α × List (Option O) := (w.ops, w.objs)

theorem world_run_eq (K : OpMem α → PlainCls O (SolverArgs α) (SolverChange α)) (copies : O → Bool)
    (hc : ∀ m o, (K m).copy o = if copies o then .ok o else .error .assertFail) (hs : ∀ m o p, (K m).swap o p = (p, o)) (prog : List (IterStmt α)) :
    ∀ w : SolverWorld α O, (SolverWorld.run K prog w).map SolverWorld.pair
      = valRun (fun m => plainVals (K m).make copies (K m).blank (K m).update) prog w.pair := by
  induction prog with
  | nil => intro w; rfl
  | cons s prog ih =>
    intro w
    have hstep : (SolverWorld.step K w s).map SolverWorld.pair = valStep (fun m => plainVals (K m).make copies (K m).blank (K m).update) w.pair s := by
      cases s with
      | newOp A => rfl
      | changeOp k f =>
        simp only [SolverWorld.step, valStep, SolverWorld.pair, Mem.put]
        cases w.ops.get k <;> rfl
      | freeOp k =>
        simp only [SolverWorld.step, valStep, SolverWorld.pair, Mem.free]
        cases w.ops.get k <;> rfl
      | solver s =>
        simp only [SolverWorld.step, valStep, SolverWorld.pair]
        rw [PlainCls.step_eq (K w.ops) copies (hc _) (hs _)]
        cases (plainVals (K w.ops).make copies (K w.ops).blank (K w.ops).update).step w.objs s <;> rfl
    unfold SolverWorld.run valRun
    rw [List.foldlM_cons, List.foldlM_cons, ← hstep]
    cases SolverWorld.step K w s with
    | error e => rfl
    | ok w' => exact ih w'

/-- What holds of every solver of a program. -/
theorem val_run_all (S : OpMem α → LifeVals V (SolverArgs α) (SolverChange α)) (P : OpMem α → V → Prop) (good : IterStmt α → Prop)
    (hm : ∀ m a v, (S m).make a = .ok v → P m v) (hu : ∀ m v u v', P m v → (S m).update v u = .ok v' → P m v')
    (hc : ∀ m v v', P m v → (S m).copy v = .ok v' → P m v') (hb : ∀ m, P m (S m).blank)
    (hmem : ∀ w w' s, good s → (∀ t, s ≠ .solver t) → valStep S w s = .ok w' → ∀ v, P w.1 v → P w'.1 v) :
    ∀ (prog : List (IterStmt α)), (∀ s ∈ prog, good s) → ∀ w w', (∀ v, some v ∈ w.2 → P w.1 v) → valRun S prog w = .ok w' →
      ∀ v, some v ∈ w'.2 → P w'.1 v := by
  intro prog
  induction prog with
  | nil =>
    intro _ w w' h e
    cases e
    exact h
  | cons s prog ih =>
    intro hg w w' h e
    unfold valRun at e
    rw [List.foldlM_cons, bind_eq_ok] at e
    obtain ⟨w1, e1, e2⟩ := e
    refine ih (fun s hs => hg s (List.mem_cons_of_mem _ hs)) w1 w' ?_ e2
    have hsame : ∀ (_ : ∀ t, s ≠ .solver t) (_ : w1.2 = w.2), ∀ v, some v ∈ w1.2 → P w1.1 v := fun hn he v hv =>
      hmem w w1 s (hg s List.mem_cons_self) hn e1 v (h v (he ▸ hv))
    cases s with
    | newOp A =>
      refine hsame (by simp) ?_
      cases e1; rfl
    | changeOp k f =>
      refine hsame (by simp) ?_
      simp only [valStep, bind_eq_ok] at e1
      obtain ⟨A, _, e1⟩ := e1
      cases e1; rfl
    | freeOp k =>
      refine hsame (by simp) ?_
      simp only [valStep, bind_eq_ok] at e1
      obtain ⟨A, _, e1⟩ := e1
      cases e1; rfl
    | solver t =>
      simp only [valStep, bind_eq_ok] at e1
      obtain ⟨vs, e1, e3⟩ := e1
      cases e3
      have := LifeVals.run_all (S w.1) (P w.1) (fun {a v} => hm w.1 a v) (fun {v u v'} => hu w.1 v u v') true (fun _ {v v'} => hc w.1 v v') true
        (fun _ => hb w.1) [t] (by simp) w.2 vs h (by unfold LifeVals.run; simp [e1])
      exact this

end Linalg
