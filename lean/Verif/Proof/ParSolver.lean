import Verif.Proof.HandlesShow
import Verif.Spec.ParSolver

/-!
# Solvers behave as their values do
-/

namespace Linalg
open Cpp

variable {α : Type}

namespace SolverObj

/-- The library of each class. -/
def libOf : SolverKind → Option HLib
  | .boomer => some .amg
  | .sails => some .sails
  | .cg => some .pcg
  | _ => none

/-- The members but for the handles. -/
def Plain (kind : SolverKind) (o : SolverObj α) (views : Bool) (A : ParMatVal α) (s : SolverSettings α) : Prop :=
  o.views = views ∧ o.A = A ∧ o.settings = some s ∧ o.create = (fns kind).1 ∧ o.destroyFn = (fns kind).2.1 ∧ o.setupFn = (fns kind).2.2.1 ∧
    o.solveFn = (fns kind).2.2.2

/-- What a solver that works owns. -/
def WorkCells (kind : SolverKind) (m : Mem (SCell α)) (o : SolverObj α) (cfg : Option (SolverSettings α)) (t : List Nat) : Prop :=
  match libOf kind with
  | some l => o.shell = .null ∧ ∃ k, o.solver = .to k ∧ m.Owns [(k, .solver l cfg true none)] t
  | none => o.solver = .null ∧ cfg = none ∧
      if kind = .smoother then ∃ k, o.shell = .to k ∧ m.Owns [(k, .shell)] t else o.shell = .null ∧ m.Owns [] t

/-- A solver stands for a value. -/
def Stands [Zero α] (kind : SolverKind) (m : Mem (SCell α)) (o : SolverObj α) (v : SolverVal α) (t : List Nat) : Prop :=
  match v with
  | .works views A s cfg => Plain kind o views A s ∧ (∃ c k w M, A = .full c k w M) ∧ WorkCells kind m o cfg t
  | .unready views A s => kind = .boomer ∧ Plain kind o views A s ∧ (∃ c k w M, A = .full c k w M) ∧ o.shell = .null ∧
      ∃ k, o.solver = .to k ∧ m.Owns [(k, .solver .amg none false none)] t
  | .noHandle views A s => kind = .sails ∧ Plain kind o views A s ∧ (∃ c k w M, A = .full c k w M) ∧ o.shell = .null ∧ o.solver = .null ∧ m.Owns [] t
  | .void => o = void ∧ m.Owns [] t
  | .junk => (kind = .base ∨ kind = .smoother) ∧ o = (blank kind []).2 ∧ m.Owns [] t

theorem owns_one (m : Mem (SCell α)) (c : SCell α) : Mem.Owns (m ++ [some c]) [(m.length, c)] [m.length] := by
  refine ⟨?_, rfl, by simp⟩
  intro p hp
  simp only [List.mem_singleton] at hp
  subst hp
  simp

theorem grown_one (m : Mem (SCell α)) (c : SCell α) : m.Grown (m ++ [some c]) [m.length] := by
  have := Mem.grown_append m [c] [m.length] (by intro k; simp; omega)
  simpa using this

theorem owns_nil (m : Mem (SCell α)) : m.Owns [] [] := ⟨fun _ hp => by simp at hp, rfl, List.nodup_nil⟩

theorem grown_nil (m : Mem (SCell α)) : m.Grown m [] := by
  have := Mem.grown_append m [] [] (by intro k; simp)
  simpa using this

theorem again_full (r : Csr α → Csr α) (c k : Int) (w : Bool) (M : ParMat α) : ∃ c' k' w' M', SolverVal.again r (.full c k w M) = .full c' k' w' M' :=
  ⟨_, _, _, _, rfl⟩

theorem copy_eq (r : Csr α → Csr α) (A : ParMatVal α) : ParMatVal.copy r A = .ok (SolverVal.again r A) := by cases A <;> rfl

theorem copyViews_eq (A : ParMatVal α) : copyViews A = SolverVal.seesCopy A := by cases A <;> rfl

variable [Zero α]

theorem make_ok (kind : SolverKind) (m : Mem (SCell α)) (A : ParMatVal α) (s : SolverSettings α) (hA : check A = .ok ()) (hf : ∃ c k w M, A = .full c k w M) :
    ∃ m' o t, make kind m (.all A s) = .ok (m', o) ∧ m.Grown m' t ∧
      Stands kind m' o (.works true A s (if SolverVal.keeps kind then some s else none)) t := by
  cases kind
  case base =>
    refine ⟨m, ⟨true, A, some s, .none, .none, .none, .none, .null, .null⟩, [], ?_, grown_nil m, ⟨rfl, rfl, rfl, rfl, rfl, rfl, rfl⟩, hf, rfl, rfl, ?_⟩
    · simp [make, hA, ok_bind, fns, callCreate]
    · exact ⟨rfl, owns_nil m⟩
  case diag =>
    refine ⟨m, ⟨true, A, some s, .none, .none, .diag, .diag, .null, .null⟩, [], ?_, grown_nil m, ⟨rfl, rfl, rfl, rfl, rfl, rfl, rfl⟩, hf, rfl, rfl, ?_⟩
    · simp [make, hA, ok_bind, fns, callCreate, callSetup]
    · exact ⟨rfl, owns_nil m⟩
  case smoother =>
    refine ⟨m ++ [some .shell], ⟨true, A, some s, .none, .none, .none, .none, .null, .to m.length⟩, [m.length], ?_, grown_one m _,
      ⟨rfl, rfl, rfl, rfl, rfl, rfl, rfl⟩, hf, rfl, rfl, ?_⟩
    · simp [make, hA, ok_bind, fns, callCreate, Mem.alloc]
    · exact ⟨_, rfl, owns_one m _⟩
  case boomer =>
    refine ⟨m ++ [some (.solver .amg (some s) true none)], ⟨true, A, some s, .lib .amg, .lib .amg, .lib .amg, .lib .amg, .to m.length, .null⟩,
      [m.length], ?_, grown_one m _, ⟨rfl, rfl, rfl, rfl, rfl, rfl, rfl⟩, hf, rfl, m.length, rfl, owns_one m _⟩
    simp [make, hA, ok_bind, fns, callCreate, callSetup, configure, Mem.alloc, Hypre.deref, Mem.get, Mem.put, bind, Except.bind]
  case cg =>
    refine ⟨m ++ [some (.solver .pcg (some s) true none)], ⟨true, A, some s, .lib .pcg, .lib .pcg, .lib .pcg, .lib .pcg, .to m.length, .null⟩,
      [m.length], ?_, grown_one m _, ⟨rfl, rfl, rfl, rfl, rfl, rfl, rfl⟩, hf, rfl, m.length, rfl, owns_one m _⟩
    simp [make, hA, ok_bind, fns, callCreate, callSetup, configure, Mem.alloc, Hypre.deref, Mem.get, Mem.put, bind, Except.bind]
  case sails =>
    refine ⟨m ++ [some (.solver .sails (some s) true none)], ⟨true, A, some s, .none, .lib .sails, .lib .sails, .lib .sails, .to m.length, .null⟩,
      [m.length], ?_, grown_one m _, ⟨rfl, rfl, rfl, rfl, rfl, rfl, rfl⟩, hf, rfl, m.length, rfl, owns_one m _⟩
    simp [make, hA, ok_bind, fns, callCreate, callSetup, configure, Mem.alloc, Hypre.deref, Mem.get, Mem.put, bind, Except.bind]

omit [Zero α] in
theorem freed_one' {m : Mem (SCell α)} {k : Nat} {c : SCell α} {t : List Nat} (h : m.Owns [(k, c)] t) :
    m[k]? = some (some c) ∧ m.Freed (m.set k none) t := by
  obtain ⟨h1, rfl, -⟩ := h
  have := h1 (k, c) (by simp)
  exact ⟨this, Mem.freed_one (List.getElem?_eq_some_iff.mp this).1⟩

theorem Stands.live {kind : SolverKind} {m : Mem (SCell α)} {o : SolverObj α} {v : SolverVal α} {t : List Nat} (h : Stands kind m o v t) :
    ∀ k ∈ t, m.Live k := by
  cases v with
  | works views A s cfg =>
    obtain ⟨h1, h2, h3⟩ := h
    unfold WorkCells at h3
    cases hl : libOf kind with
    | none =>
      rw [hl] at h3
      obtain ⟨a, b, c⟩ := h3
      split at c
      · obtain ⟨k, hk, ho⟩ := c
        exact ho.live
      · exact c.2.live
    | some l =>
      rw [hl] at h3
      obtain ⟨a, k, hk, ho⟩ := h3
      exact ho.live
  | unready views A s =>
    obtain ⟨h0, h1, h2, h3, k, hk, ho⟩ := h
    exact ho.live
  | noHandle views A s => exact h.2.2.2.2.2.live
  | void => exact h.2.live
  | junk => exact h.2.2.live

theorem lawful (r : Csr α → Csr α) (kind : SolverKind) : Lawful (cls r kind) (SolverVal.vals r kind) (Stands kind) where
  frame := by
    intro m m' o v t h e
    cases v with
    | works views A s cfg =>
      obtain ⟨h1, h2, h3⟩ := h
      refine ⟨h1, h2, ?_⟩
      unfold WorkCells at h3 ⊢
      cases hl : libOf kind with
      | none =>
        rw [hl] at h3
        obtain ⟨a, b, c⟩ := h3
        refine ⟨a, b, ?_⟩
        split at c
        · rename_i hk
          rw [if_pos hk]
          obtain ⟨k, hk, ho⟩ := c
          exact ⟨k, hk, ho.frame e⟩
        · rename_i hk
          rw [if_neg hk]
          exact ⟨c.1, c.2.frame e⟩
      | some l =>
        rw [hl] at h3
        obtain ⟨a, k, hk, ho⟩ := h3
        exact ⟨a, k, hk, ho.frame e⟩
    | unready views A s =>
      obtain ⟨h0, h1, h2, h3, k, hk, ho⟩ := h
      exact ⟨h0, h1, h2, h3, k, hk, ho.frame e⟩
    | noHandle views A s =>
      obtain ⟨h0, h1, h2, h3, hk, ho⟩ := h
      exact ⟨h0, h1, h2, h3, hk, ho.frame e⟩
    | void => exact ⟨h.1, h.2.frame e⟩
    | junk => exact ⟨h.1, h.2.1, h.2.2.frame e⟩
  live := Stands.live
  make := by
    intro m a
    cases a with
    | none => exact ⟨m, void, [], rfl, grown_nil m, rfl, owns_nil m⟩
    | all A s =>
      cases A with
      | void => rfl
      | full c k w M =>
        have e : (SolverVal.vals r kind).make (.all (.full c k w M) s) = (do
          cassert (M.rows = M.cols)
          cassert (M.globalRows = M.globalCols)
          .ok (.works true (.full c k w M) s (if SolverVal.keeps kind then some s else none))) := rfl
        rw [e]
        by_cases h1 : M.rows = M.cols
        · by_cases h2 : M.globalRows = M.globalCols
          · simp only [h1, h2, cassert_true, ok_bind]
            exact make_ok kind m _ s (by simp [check, h1, h2, cassert_true, ok_bind]) ⟨c, k, w, M, rfl⟩
          · simp only [h1, cassert_true, ok_bind, cassert_false h2]
            simp [cls, make, check, h1, cassert_true, ok_bind, cassert_false h2, bind, Except.bind]
        · simp only [cassert_false h1]
          simp [cls, make, check, cassert_false h1, bind, Except.bind]
  copy := by
    intro m o v t h
    cases v with
    | works views A s cfg =>
      obtain ⟨⟨h1, h2, h3, h4, h5, h6, h7⟩, ⟨c, k, w, M, hA⟩, hc⟩ := h
      obtain ⟨c', k', w', M', hg⟩ := again_full r c k w M
      rw [← hA] at hg
      have e : ∀ kind, (cls r kind).copy m o = copy r kind m o := fun _ => rfl
      rw [e]
      cases kind
      case base =>
        refine ⟨m, ⟨SolverVal.seesCopy A, SolverVal.again r A, some s, .none, .none, .none, .none, .null, .null⟩, [], ?_, grown_nil m,
          ⟨rfl, rfl, rfl, rfl, rfl, rfl, rfl⟩, ⟨_, _, _, _, hg⟩, rfl, rfl, rfl, owns_nil m⟩
        simp [copy, h2, copy_eq, ok_bind, h4, h5, h6, h7, fns, callCreate, h3, copyViews_eq]
      case diag =>
        refine ⟨m, ⟨SolverVal.seesCopy A, SolverVal.again r A, some s, .none, .none, .diag, .diag, .null, .null⟩, [], ?_, grown_nil m,
          ⟨rfl, rfl, rfl, rfl, rfl, rfl, rfl⟩, ⟨_, _, _, _, hg⟩, rfl, rfl, rfl, owns_nil m⟩
        simp [copy, h2, copy_eq, ok_bind, h4, h5, h6, h7, fns, callCreate, h3, copyViews_eq]
      case smoother =>
        refine ⟨m ++ [some .shell], ⟨SolverVal.seesCopy A, SolverVal.again r A, some s, .none, .none, .none, .none, .null, .to m.length⟩, [m.length], ?_,
          grown_one m _, ⟨rfl, rfl, rfl, rfl, rfl, rfl, rfl⟩, ⟨_, _, _, _, hg⟩, rfl, rfl, _, rfl, owns_one m _⟩
        simp [copy, h2, copy_eq, ok_bind, h4, h5, h6, h7, fns, callCreate, h3, copyViews_eq, hg, initShell, Mem.alloc]
      case boomer =>
        refine ⟨m ++ [some (.solver .amg none false none)],
          ⟨SolverVal.seesCopy A, SolverVal.again r A, some s, .lib .amg, .lib .amg, .lib .amg, .lib .amg, .to m.length, .null⟩, [m.length], ?_,
          grown_one m _, rfl, ⟨rfl, rfl, rfl, rfl, rfl, rfl, rfl⟩, ⟨_, _, _, _, hg⟩, rfl, _, rfl, owns_one m _⟩
        simp [copy, h2, copy_eq, ok_bind, h4, h5, h6, h7, fns, callCreate, h3, copyViews_eq, Mem.alloc]
      case sails =>
        refine ⟨m, ⟨SolverVal.seesCopy A, SolverVal.again r A, some s, .none, .lib .sails, .lib .sails, .lib .sails, .null, .null⟩, [], ?_, grown_nil m,
          rfl, ⟨rfl, rfl, rfl, rfl, rfl, rfl, rfl⟩, ⟨_, _, _, _, hg⟩, rfl, rfl, owns_nil m⟩
        simp [copy, h2, copy_eq, ok_bind, h4, h5, h6, h7, fns, callCreate, h3, copyViews_eq]
      case cg =>
        have e2 : (SolverVal.vals r .cg).copy (.works views A s cfg) =
          if SolverVal.seesCopy A then .ok (.works true (SolverVal.again r A) s none) else .error .undefinedBehaviour := rfl
        rw [e2]
        cases hs : SolverVal.seesCopy A with
        | false =>
          simp [copy, h2, copy_eq, ok_bind, h4, h5, h6, h7, fns, callCreate, h3, copyViews_eq, Mem.alloc, hs, callSetup, bind, Except.bind]
        | true =>
          refine ⟨m ++ [some (.solver .pcg none true none)],
            ⟨true, SolverVal.again r A, some s, .lib .pcg, .lib .pcg, .lib .pcg, .lib .pcg, .to m.length, .null⟩, [m.length], ?_,
            grown_one m _, ⟨rfl, rfl, rfl, rfl, rfl, rfl, rfl⟩, ⟨_, _, _, _, hg⟩, rfl, _, rfl, owns_one m _⟩
          simp [copy, h2, copy_eq, ok_bind, h4, h5, h6, h7, fns, callCreate, h3, copyViews_eq, Mem.alloc, hs, callSetup, Hypre.deref, Mem.get, Mem.put, bind,
            Except.bind]
    | unready views A s =>
      obtain ⟨rfl, ⟨h1, h2, h3, h4, h5, h6, h7⟩, ⟨c, k, w, M, hA⟩, h8, p, hp, -⟩ := h
      obtain ⟨c', k', w', M', hg⟩ := again_full r c k w M
      rw [← hA] at hg
      refine ⟨m ++ [some (.solver .amg none false none)],
          ⟨SolverVal.seesCopy A, SolverVal.again r A, some s, .lib .amg, .lib .amg, .lib .amg, .lib .amg, .to m.length, .null⟩, [m.length], ?_,
          grown_one m _, rfl, ⟨rfl, rfl, rfl, rfl, rfl, rfl, rfl⟩, ⟨_, _, _, _, hg⟩, rfl, _, rfl, owns_one m _⟩
      simp [cls, copy, h2, copy_eq, ok_bind, h4, h5, h6, h7, fns, callCreate, h3, copyViews_eq, Mem.alloc]
    | noHandle views A s =>
      obtain ⟨rfl, ⟨h1, h2, h3, h4, h5, h6, h7⟩, ⟨c, k, w, M, hA⟩, h8, hp, -⟩ := h
      obtain ⟨c', k', w', M', hg⟩ := again_full r c k w M
      rw [← hA] at hg
      refine ⟨m, ⟨SolverVal.seesCopy A, SolverVal.again r A, some s, .none, .lib .sails, .lib .sails, .lib .sails, .null, .null⟩, [], ?_, grown_nil m,
          rfl, ⟨rfl, rfl, rfl, rfl, rfl, rfl, rfl⟩, ⟨_, _, _, _, hg⟩, rfl, rfl, owns_nil m⟩
      simp [cls, copy, h2, copy_eq, ok_bind, h4, h5, h6, h7, fns, callCreate, h3, copyViews_eq]
    | void =>
      obtain ⟨rfl, -⟩ := h
      cases kind
      case smoother => rfl
      all_goals exact ⟨m, void, [], rfl, grown_nil m, rfl, owns_nil m⟩
    | junk =>
      obtain ⟨rfl | rfl, rfl, -⟩ := h
      · rfl
      · rfl
  blank := by
    intro m
    refine ⟨[], ?_, ?_⟩
    · cases kind <;> exact grown_nil m
    · cases kind
      case base => exact ⟨Or.inl rfl, rfl, owns_nil m⟩
      case smoother => exact ⟨Or.inr rfl, rfl, owns_nil m⟩
      all_goals exact ⟨rfl, owns_nil m⟩
  swap := fun _ _ => rfl
  destroy := by
    intro m o v t h
    have e : (cls r kind).destroy m o = destroy kind m o := rfl
    rw [e]
    cases v with
    | works views A s cfg =>
      obtain ⟨⟨h1, h2, h3, h4, h5, h6, h7⟩, hA, hc⟩ := h
      cases kind
      case base =>
        obtain ⟨a, b, c, d⟩ := hc
        obtain ⟨-, rfl, -⟩ := d
        exact ⟨m, by simp [destroy, h5, fns, callDestroy, ok_bind], Mem.Freed.refl m⟩
      case diag =>
        obtain ⟨a, b, c, d⟩ := hc
        obtain ⟨-, rfl, -⟩ := d
        exact ⟨m, by simp [destroy, h5, fns, callDestroy, ok_bind], Mem.Freed.refl m⟩
      case smoother =>
        obtain ⟨a, b, k, c, d⟩ := hc
        obtain ⟨d1, d2⟩ := freed_one' d
        exact ⟨_, by simp [destroy, h5, fns, callDestroy, ok_bind, destroyShell, c, Mem.get_ok d1, Mem.free_ok d1], d2⟩
      all_goals
        obtain ⟨a, k, c, d⟩ := hc
        obtain ⟨d1, d2⟩ := freed_one' d
        exact ⟨_, by simp [destroy, h5, fns, callDestroy, ok_bind, c, Hypre.deref, Mem.get_ok d1, Mem.free_ok d1], d2⟩
    | unready views A s =>
      obtain ⟨rfl, ⟨h1, h2, h3, h4, h5, h6, h7⟩, hA, a, k, c, d⟩ := h
      obtain ⟨d1, d2⟩ := freed_one' d
      exact ⟨_, by simp [destroy, h5, fns, callDestroy, ok_bind, c, Hypre.deref, Mem.get_ok d1, Mem.free_ok d1], d2⟩
    | noHandle views A s =>
      obtain ⟨rfl, ⟨h1, h2, h3, h4, h5, h6, h7⟩, hA, a, c, -⟩ := h
      show destroy .sails m o = .error .undefinedBehaviour
      simp [destroy, h5, fns, callDestroy, ok_bind, c, Hypre.deref, bind, Except.bind]
    | void =>
      obtain ⟨rfl, -, rfl, -⟩ := h
      exact ⟨m, by simp [destroy, void, callDestroy, ok_bind, destroyShell], Mem.Freed.refl m⟩
    | junk =>
      obtain ⟨rfl | rfl, rfl, -⟩ := h
      · rfl
      · rfl
  update := by
    intro m o v t u h
    have e : (cls r kind).update m o u = update kind m o u := rfl
    rw [e]
    cases v with
    | works views A s cfg =>
      have h' := h
      obtain ⟨⟨h1, h2, h3, h4, h5, h6, h7⟩, hA, hc⟩ := h
      cases views with
      | false =>
        show update kind m o u = .error .undefinedBehaviour
        simp [update, mult, h1, bind, Except.bind]
      | true =>
        refine ⟨m, ?_, ⟨rfl, Stands.live h', fun _ _ => rfl⟩, h'⟩
        cases kind
        case base => simp [update, mult, h1, h7, fns, callSolve, ok_bind]
        case diag => simp [update, mult, h1, h7, fns, callSolve, ok_bind]
        case smoother =>
          obtain ⟨a, b, k, c, d⟩ := hc
          simp [update, mult, h1, ok_bind, c, Hypre.deref, Mem.get_ok (freed_one' d).1]
        all_goals
          obtain ⟨a, k, c, d⟩ := hc
          simp [update, mult, h1, h7, fns, callSolve, ok_bind, c, Hypre.deref, Mem.get_ok (freed_one' d).1]
    | unready views A s =>
      obtain ⟨rfl, ⟨h1, h2, h3, h4, h5, h6, h7⟩, hA, a, k, c, d⟩ := h
      show update .boomer m o u = .error .undefinedBehaviour
      cases views <;> simp [update, mult, h1, h7, fns, callSolve, ok_bind, c, Hypre.deref, Mem.get_ok (freed_one' d).1, bind, Except.bind]
    | noHandle views A s =>
      obtain ⟨rfl, ⟨h1, h2, h3, h4, h5, h6, h7⟩, hA, a, c, -⟩ := h
      show update .sails m o u = .error .undefinedBehaviour
      cases views <;> simp [update, mult, h1, h7, fns, callSolve, ok_bind, c, Hypre.deref, bind, Except.bind]
    | void =>
      obtain ⟨rfl, -⟩ := h
      rfl
    | junk =>
      obtain ⟨rfl | rfl, rfl, -⟩ := h
      · rfl
      · rfl

theorem Stands.shows {kind : SolverKind} {m : Mem (SCell α)} {o : SolverObj α} {v : SolverVal α} {t : List Nat} (h : Stands kind m o v t) :
    Shows kind m o v := by
  cases v with
  | works views A s cfg =>
    obtain ⟨⟨h1, h2, h3, h4, h5, h6, h7⟩, hA, hc⟩ := h
    refine ⟨h2, h3, ?_⟩
    cases views with
    | false => simp [mult, h1]
    | true =>
      cases kind
      case base => simp [mult, h1, h7, fns, callSolve, ok_bind, h2, hc.2.1]
      case diag => simp [mult, h1, h7, fns, callSolve, ok_bind, h2, hc.2.1]
      case smoother =>
        obtain ⟨a, b, k, c, d⟩ := hc
        simp [mult, h1, ok_bind, c, Hypre.deref, Mem.get_ok (freed_one' d).1, h2, b]
      all_goals
        obtain ⟨a, k, c, d⟩ := hc
        simp [mult, h1, h7, fns, callSolve, ok_bind, c, Hypre.deref, Mem.get_ok (freed_one' d).1, h2]
  | unready views A s =>
    obtain ⟨rfl, ⟨h1, h2, h3, h4, h5, h6, h7⟩, hA, a, k, c, d⟩ := h
    refine ⟨h2, h3, ?_⟩
    cases views <;> simp [mult, h1, h7, fns, callSolve, ok_bind, c, Hypre.deref, Mem.get_ok (freed_one' d).1, bind, Except.bind]
  | noHandle views A s =>
    obtain ⟨rfl, ⟨h1, h2, h3, h4, h5, h6, h7⟩, hA, a, c, -⟩ := h
    refine ⟨h2, h3, ?_⟩
    cases views <;> simp [mult, h1, h7, fns, callSolve, ok_bind, c, Hypre.deref, bind, Except.bind]
  | void =>
    obtain ⟨rfl, -⟩ := h
    exact ⟨rfl, rfl⟩
  | junk =>
    obtain ⟨rfl | rfl, rfl, -⟩ := h
    · rfl
    · rfl

end SolverObj
end Linalg
