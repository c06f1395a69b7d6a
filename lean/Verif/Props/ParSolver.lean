import Verif.Props.Handles
import Verif.Proof.ParSolver

/-!
# Solvers as objects (C99) and their preconditioners (C100)
-/

namespace Linalg
open Cpp

variable {α : Type}

/-- Whether a statement copies. -/
def LifeStmt.copies {A U : Type} : LifeStmt A U → Bool
  | .copy _ => true
  | .assign _ _ => true
  | _ => false

/-- Whether a statement moves. -/
def LifeStmt.moves {A U : Type} : LifeStmt A U → Bool
  | .move _ => true
  | .assignMove _ _ => true
  | _ => false

theorem LifeVals.get_mem {V : Type} {vs : List (Option V)} {i : Nat} {v : V} (h : LifeVals.get vs i = .ok v) : some v ∈ vs := by
  unfold LifeVals.get at h
  split at h
  · rename_i x hx
    cases h
    exact List.mem_of_getElem? hx
  · cases h

theorem LifeVals.mem_set {V : Type} {vs : List (Option V)} {i : Nat} {x y : Option V} (h : y ∈ vs.set i x) : y ∈ vs ∨ y = x :=
  List.mem_or_eq_of_mem_set h

/-- What holds of every value of a program. -/
theorem LifeVals.run_all {V A U : Type} (S : LifeVals V A U) (P : V → Prop) (hm : ∀ {a v}, S.make a = .ok v → P v) (hu : ∀ {v u v'}, P v → S.update v u = .ok v' → P v')
    (c : Bool) (hc : c → ∀ {v v'}, P v → S.copy v = .ok v' → P v') (b : Bool) (hb : b → P S.blank) :
    ∀ (ops : List (LifeStmt A U)), (∀ op ∈ ops, (op.copies → c) ∧ (op.moves → b)) → ∀ (vs vs' : List (Option V)), (∀ v, some v ∈ vs → P v) → S.run ops vs = .ok vs' →
      ∀ v, some v ∈ vs' → P v
  | [], _, vs, vs', h, e => by
    cases e
    exact h
  | op :: ops, ho, vs, vs', h, e => by
    have e' : (S.step vs op >>= fun vs => S.run ops vs) = .ok vs' := e
    obtain ⟨v1, h1, h2⟩ := bind_eq_ok.mp e'
    refine LifeVals.run_all S P hm hu c hc b hb ops (fun op hop => ho op (List.mem_cons_of_mem _ hop)) v1 vs' ?_ h2
    obtain ⟨oc, om⟩ := ho op List.mem_cons_self
    cases op with
    | make a =>
      obtain ⟨v, g1, g2⟩ := bind_eq_ok.mp h1
      cases g2
      intro x hx
      simp only [List.mem_append, List.mem_singleton, Option.some.injEq] at hx
      rcases hx with hx | rfl
      · exact h x hx
      · exact hm g1
    | copy i =>
      obtain ⟨v, g1, g2⟩ := bind_eq_ok.mp h1
      obtain ⟨u, g3, g4⟩ := bind_eq_ok.mp g2
      cases g4
      intro x hx
      simp only [List.mem_append, List.mem_singleton, Option.some.injEq] at hx
      rcases hx with hx | rfl
      · exact h x hx
      · exact hc (oc rfl) (h v (get_mem g1)) g3
    | move i =>
      obtain ⟨v, g1, g2⟩ := bind_eq_ok.mp h1
      cases g2
      intro x hx
      simp only [List.mem_append, List.mem_singleton, Option.some.injEq] at hx
      rcases hx with hx | rfl
      · rcases mem_set hx with hx | hx
        · exact h x hx
        · cases hx; exact hb (om rfl)
      · exact h x (get_mem g1)
    | assign i j =>
      obtain ⟨v, g1, g2⟩ := bind_eq_ok.mp h1
      obtain ⟨u, g3, g4⟩ := bind_eq_ok.mp g2
      obtain ⟨y, g5, g6⟩ := bind_eq_ok.mp g4
      obtain ⟨_, _, g6⟩ := bind_eq_ok.mp g6
      cases g6
      intro x hx
      rcases mem_set hx with hx | hx
      · exact h x hx
      · cases hx; exact hc (oc rfl) (h u (get_mem g3)) g5
    | assignMove i j =>
      obtain ⟨v, g1, g2⟩ := bind_eq_ok.mp h1
      obtain ⟨u, g3, g4⟩ := bind_eq_ok.mp g2
      obtain ⟨y, g5, g6⟩ := bind_eq_ok.mp g4
      obtain ⟨_, _, g6⟩ := bind_eq_ok.mp g6
      cases g6
      intro x hx
      rcases mem_set hx with hx | hx
      · rcases mem_set hx with hx | hx
        · exact h x hx
        · cases hx; exact hb (om rfl)
      · cases hx; exact h u (get_mem g3)
    | swap i j =>
      obtain ⟨v, g1, g2⟩ := bind_eq_ok.mp h1
      obtain ⟨u, g3, g4⟩ := bind_eq_ok.mp g2
      cases g4
      intro x hx
      rcases mem_set hx with hx | hx
      · rcases mem_set hx with hx | hx
        · exact h x hx
        · cases hx; exact h v (get_mem g1)
      · cases hx; exact h u (get_mem g3)
    | destroy i =>
      obtain ⟨v, g1, g2⟩ := bind_eq_ok.mp h1
      obtain ⟨_, _, g6⟩ := bind_eq_ok.mp g2
      cases g6
      intro x hx
      rcases mem_set hx with hx | hx
      · exact h x hx
      · cases hx
    | update i u =>
      obtain ⟨v, g1, g2⟩ := bind_eq_ok.mp h1
      obtain ⟨y, g5, g6⟩ := bind_eq_ok.mp g2
      cases g6
      intro x hx
      rcases mem_set hx with hx | hx
      · exact h x hx
      · cases hx; exact hu (h v (get_mem g1)) g5

theorem LifeVals.run_more {V A U : Type} (S : LifeVals V A U) (ops more : List (LifeStmt A U)) {vs : List (Option V)}
    (h : S.run ops [] = .ok vs) : S.run (ops ++ more) [] = S.run more vs := by
  unfold LifeVals.run at h ⊢
  rw [List.foldlM_append, h, ok_bind]

/-! ## C99 -/

variable [Zero α]

/-- **C99.**  Any program of constructions, copies, moves, assignments, swaps, products and destructions of solvers of one class does what
it does on the values of `SolverVal`: products work with the matrix and settings of the value, it fails where they fail, nothing is used
or given back after it was given back, and once every solver is destroyed nothing is left allocated. -/
theorem C99_values_partial (r : Csr α → Csr α) (kind : SolverKind) (ops : List (LifeStmt (SolverObj.Args α) Unit)) :
    (SolverObj.cls r kind).Follows (SolverVal.vals r kind) (SolverObj.Shows kind) ops :=
  (SolverObj.lawful r kind).run_shows SolverObj.Stands.shows ops

/-- The values behind the objects of a program that ends well. -/
theorem solver_back (r : Csr α → Csr α) (kind : SolverKind) (ops : List (LifeStmt (SolverObj.Args α) Unit)) {w : LifeStore (SCell α) (SolverObj α)}
    (h : LifeStore.run (SolverObj.cls r kind) ops ⟨[], []⟩ = .ok w) :
    ∃ vs, (SolverVal.vals r kind).run ops [] = .ok vs ∧ w.Shows (SolverObj.Shows kind) vs := by
  have k := C99_values_partial r kind ops
  cases hv : (SolverVal.vals r kind).run ops [] with
  | error e => rw [Cls.Follows, hv] at k; rw [k] at h; cases h
  | ok vs =>
    rw [Cls.Follows, hv] at k
    obtain ⟨w', h1, h2, -⟩ := k
    rw [h] at h1
    cases h1
    exact ⟨vs, rfl, h2⟩

theorem LifeStore.Shows.at {C O V : Type} {R : Mem C → O → V → Prop} {w : LifeStore C O} {vs : List (Option V)} (h : w.Shows R vs) {i : Nat} {o : O}
    (ho : w.objs[i]? = some (some o)) : ∃ v, vs[i]? = some (some v) ∧ R w.mem o v := by
  have := h.2 i
  rw [ho] at this
  cases hv : vs[i]? with
  | none => rw [hv] at this; exact this.elim
  | some v =>
    cases v with
    | none => rw [hv] at this; exact this.elim
    | some v => rw [hv] at this; exact ⟨v, rfl, this⟩

/-- **C99.**  After any program that does not copy, each `BoomerAMG`, `ParaSails`, `ParCG` and `ParDiagScale` is empty, or its products work
with its own matrix and, where the library has any, its own settings; and it can be destroyed. -/
theorem C99_moves (r : Csr α → Csr α) (kind : SolverKind) (hk : kind ≠ .base ∧ kind ≠ .smoother) (ops : List (LifeStmt (SolverObj.Args α) Unit))
    (hc : ∀ op ∈ ops, op.copies = false) {w : LifeStore (SCell α) (SolverObj α)} (h : LifeStore.run (SolverObj.cls r kind) ops ⟨[], []⟩ = .ok w)
    {i : Nat} {o : SolverObj α} (ho : w.objs[i]? = some (some o)) :
    (o.A = .void ∨ o.settings.isSome ∧ o.mult kind w.mem = .ok (o.A, if kind = .diag then none else o.settings)) ∧
      ∃ w', LifeStore.run (SolverObj.cls r kind) (ops ++ [LifeStmt.destroy i]) ⟨[], []⟩ = .ok w' := by
  obtain ⟨vs, hv, hs⟩ := solver_back r kind ops h
  obtain ⟨v, hvi, hR⟩ := hs.at ho
  have good := LifeVals.run_all (SolverVal.vals r kind) (fun v => v = .void ∨ ∃ A s, v = .works true A s (if SolverVal.keeps kind then some s else none))
    (by
      intro a v ha
      cases a with
      | none => cases ha; exact Or.inl rfl
      | all A s =>
        cases A with
        | void => cases ha
        | full c k w M =>
          obtain ⟨_, _, ha⟩ := bind_eq_ok.mp ha
          obtain ⟨_, _, ha⟩ := bind_eq_ok.mp ha
          cases ha
          exact Or.inr ⟨_, _, rfl⟩)
    (by
      rintro v u v' (rfl | ⟨A, s, rfl⟩) hu
      · cases hu
      · cases hu; exact Or.inr ⟨_, _, rfl⟩)
    false (by simp) true (by intro _; left; cases kind <;> simp_all [SolverVal.vals, SolverVal.blank])
    ops (by intro op hop; simp [hc op hop]) [] vs (by simp) hv v (List.mem_of_getElem? hvi)
  constructor
  · rcases good with rfl | ⟨A, s, rfl⟩
    · exact Or.inl hR.1
    · right
      obtain ⟨h1, h2, h3⟩ := hR
      rw [h1, h2, h3]
      cases kind <;> simp_all [SolverVal.keeps]
  · have k := C99_values_partial r kind (ops ++ [LifeStmt.destroy i])
    have e : (SolverVal.vals r kind).run (ops ++ [LifeStmt.destroy i]) [] = .ok (vs.set i none) := by
      rw [LifeVals.run_append _ _ _ hv]
      simp only [LifeVals.step, LifeVals.get_ok hvi, ok_bind]
      rcases good with rfl | ⟨A, s, rfl⟩ <;> rfl
    rw [Cls.Follows, e] at k
    obtain ⟨w', h1, -⟩ := k
    exact ⟨w', h1⟩

/-- **C99.**  After any program of `ParDiagScale`s, or one of `ParSmoother`s that does not move, each is empty or works with its own matrix if
that is on a communicator which is a positive number; and it can be destroyed. -/
theorem C99_copies (r : Csr α → Csr α) (kind : SolverKind) (ops : List (LifeStmt (SolverObj.Args α) Unit))
    (hk : kind = .diag ∨ kind = .smoother ∧ ∀ op ∈ ops, op.moves = false) {w : LifeStore (SCell α) (SolverObj α)}
    (h : LifeStore.run (SolverObj.cls r kind) ops ⟨[], []⟩ = .ok w) {i : Nat} {o : SolverObj α} (ho : w.objs[i]? = some (some o)) :
    (o.A = .void ∨ ∃ comm rank views M, o.A = .full comm rank views M ∧ (comm > 0 → rank ≥ 0 → o.mult kind w.mem = .ok (o.A, none))) ∧
      ∃ w', LifeStore.run (SolverObj.cls r kind) (ops ++ [LifeStmt.destroy i]) ⟨[], []⟩ = .ok w' := by
  obtain ⟨vs, hv, hs⟩ := solver_back r kind ops h
  obtain ⟨v, hvi, hR⟩ := hs.at ho
  have good := LifeVals.run_all (SolverVal.vals r kind) (fun v => v = .void ∨ ∃ b c k w M s, v = .works b (.full c k w M) s none ∧ (c > 0 → k ≥ 0 → b = true))
    (by
      intro a v ha
      cases a with
      | none => cases ha; exact Or.inl rfl
      | all A s =>
        cases A with
        | void => cases ha
        | full c k w M =>
          obtain ⟨_, _, ha⟩ := bind_eq_ok.mp ha
          obtain ⟨_, _, ha⟩ := bind_eq_ok.mp ha
          cases ha
          refine Or.inr ⟨true, c, k, w, M, s, ?_, fun _ _ => rfl⟩
          rcases hk with rfl | ⟨rfl, -⟩ <;> rfl)
    (by
      rintro v u v' (rfl | ⟨b, c, k, w, M, s, rfl, hb⟩) hu
      · cases hu
      · cases b with
        | false => cases hu
        | true => cases hu; exact Or.inr ⟨_, _, _, _, _, _, rfl, hb⟩)
    true (by
      rintro - v v' (rfl | ⟨b, c, k, w, M, s, rfl, hb⟩) hu
      · rcases hk with rfl | ⟨rfl, -⟩
        · cases hu; exact Or.inl rfl
        · cases hu
      · right
        rcases hk with rfl | ⟨rfl, -⟩
        all_goals
          cases hu
          exact ⟨_, _, _, _, _, _, rfl, fun h1 h2 => by simp [SolverVal.seesCopy, h1, h2]⟩)
    (kind = .diag) (by intro hd; left; simp at hd; rw [hd]; rfl)
    ops (by
      intro op hop
      refine ⟨fun _ => rfl, fun hm => ?_⟩
      rcases hk with rfl | ⟨-, hk⟩
      · rfl
      · rw [hk op hop] at hm; cases hm) [] vs (by simp) hv v (List.mem_of_getElem? hvi)
  constructor
  · rcases good with rfl | ⟨b, c, k, w, M, s, rfl, hb⟩
    · exact Or.inl hR.1
    · right
      obtain ⟨h1, h2, h3⟩ := hR
      refine ⟨c, k, w, M, h1, fun hc hr => ?_⟩
      rw [h3, hb hc hr, h1]
      rfl
  · have k := C99_values_partial r kind (ops ++ [LifeStmt.destroy i])
    have e : (SolverVal.vals r kind).run (ops ++ [LifeStmt.destroy i]) [] = .ok (vs.set i none) := by
      rw [LifeVals.run_append _ _ _ hv]
      simp only [LifeVals.step, LifeVals.get_ok hvi, ok_bind]
      rcases good with rfl | ⟨b, c, k, w, M, s, rfl, hb⟩ <;> rfl
    rw [Cls.Follows, e] at k
    obtain ⟨w', h1, -⟩ := k
    exact ⟨w', h1⟩

omit [Zero α] in
theorem get_last {V : Type} (vs : List (Option V)) (v : V) : LifeVals.get (vs ++ [some v]) vs.length = .ok v := LifeVals.get_ok (by simp)

/-- **C99, negation.**  After any program, a product with a copy of a `BoomerAMG` has undefined behaviour: its solver was never set up. -/
theorem C99_copy_boomer (r : Csr α → Csr α) (ops : List (LifeStmt (SolverObj.Args α) Unit)) {vs : List (Option (SolverVal α))}
    (h : (SolverVal.vals r .boomer).run ops [] = .ok vs) {i : Nat} {views : Bool} {A : ParMatVal α} {s : SolverSettings α} {cfg : Option (SolverSettings α)}
    (hi : vs[i]? = some (some (.works views A s cfg))) :
    (∃ w, LifeStore.run (SolverObj.cls r .boomer) (ops ++ [.copy i]) ⟨[], []⟩ = .ok w) ∧
    LifeStore.run (SolverObj.cls r .boomer) (ops ++ [.copy i, .update vs.length ()]) ⟨[], []⟩ = .error .undefinedBehaviour := by
  have e : (SolverVal.vals r .boomer).step vs (.copy i) = .ok (vs ++ [some (.unready (SolverVal.seesCopy A) (SolverVal.again r A) s)]) := by
    simp only [LifeVals.step, LifeVals.get_ok hi, ok_bind]
    rfl
  constructor
  · have k := C99_values_partial r .boomer (ops ++ [.copy i])
    rw [Cls.Follows, LifeVals.run_append _ _ _ h, e] at k
    obtain ⟨w, h1, -⟩ := k
    exact ⟨w, h1⟩
  · have k := C99_values_partial r .boomer (ops ++ [.copy i, .update vs.length ()])
    have e2 : (SolverVal.vals r .boomer).run (ops ++ [.copy i, .update vs.length ()]) [] = .error .undefinedBehaviour := by
      rw [LifeVals.run_more _ _ _ h]
      simp only [LifeVals.run, List.foldlM_cons, e, ok_bind]
      simp only [LifeVals.step, get_last, ok_bind]
      rfl
    rw [Cls.Follows, e2] at k
    exact k

/-- **C99, negation.**  After any program, a `ParaSails` can be copied, and the destruction of the copy has undefined behaviour: it has no solver to
give back. -/
theorem C99_copy_sails (r : Csr α → Csr α) (ops : List (LifeStmt (SolverObj.Args α) Unit)) {vs : List (Option (SolverVal α))}
    (h : (SolverVal.vals r .sails).run ops [] = .ok vs) {i : Nat} {views : Bool} {A : ParMatVal α} {s : SolverSettings α} {cfg : Option (SolverSettings α)}
    (hi : vs[i]? = some (some (.works views A s cfg))) :
    (∃ w, LifeStore.run (SolverObj.cls r .sails) (ops ++ [.copy i]) ⟨[], []⟩ = .ok w) ∧
    LifeStore.run (SolverObj.cls r .sails) (ops ++ [.copy i, .destroy vs.length]) ⟨[], []⟩ = .error .undefinedBehaviour := by
  have e : (SolverVal.vals r .sails).step vs (.copy i) = .ok (vs ++ [some (.noHandle (SolverVal.seesCopy A) (SolverVal.again r A) s)]) := by
    simp only [LifeVals.step, LifeVals.get_ok hi, ok_bind]
    rfl
  constructor
  · have k := C99_values_partial r .sails (ops ++ [.copy i])
    rw [Cls.Follows, LifeVals.run_append _ _ _ h, e] at k
    obtain ⟨w, h1, -⟩ := k
    exact ⟨w, h1⟩
  · have k := C99_values_partial r .sails (ops ++ [.copy i, .destroy vs.length])
    have e2 : (SolverVal.vals r .sails).run (ops ++ [.copy i, .destroy vs.length]) [] = .error .undefinedBehaviour := by
      rw [LifeVals.run_more _ _ _ h]
      simp only [LifeVals.run, List.foldlM_cons, e, ok_bind]
      simp only [LifeVals.step, get_last, ok_bind]
      rfl
    rw [Cls.Follows, e2] at k
    exact k

/-- **C99, negation.**  After any program, the copy of a `ParCG` keeps the tolerance and the most passes in its members, but its products work
without them, with whatever the library does by itself; on a communicator that is a negative number, copying has undefined behaviour. -/
theorem C99_copy_cg (r : Csr α → Csr α) (ops : List (LifeStmt (SolverObj.Args α) Unit)) {vs : List (Option (SolverVal α))}
    (h : (SolverVal.vals r .cg).run ops [] = .ok vs) {i : Nat} {views b : Bool} {comm rank : Int} {M : ParMat α} {s : SolverSettings α}
    {cfg : Option (SolverSettings α)} (hi : vs[i]? = some (some (.works b (.full comm rank views M) s cfg))) :
    (comm > 0 → rank ≥ 0 → ∃ w o, LifeStore.run (SolverObj.cls r .cg) (ops ++ [.copy i]) ⟨[], []⟩ = .ok w ∧ w.objs[vs.length]? = some (some o) ∧
      o.settings = some s ∧ o.mult .cg w.mem = .ok (o.A, none)) ∧
    (comm < 0 → LifeStore.run (SolverObj.cls r .cg) (ops ++ [.copy i]) ⟨[], []⟩ = .error .undefinedBehaviour) := by
  have k := C99_values_partial r .cg (ops ++ [.copy i])
  have e : (SolverVal.vals r .cg).step vs (.copy i) = (do
      let v ← (if SolverVal.seesCopy (.full comm rank views M) then .ok (.works true (SolverVal.again r (.full comm rank views M)) s none)
        else .error .undefinedBehaviour)
      .ok (vs ++ [some v])) := by
    simp only [LifeVals.step, LifeVals.get_ok hi, ok_bind]
    rfl
  rw [Cls.Follows, LifeVals.run_append _ _ _ h, e] at k
  constructor
  · intro hc hr
    rw [if_pos (by simp [SolverVal.seesCopy, hc, hr]), ok_bind] at k
    obtain ⟨w, h1, ⟨hl, h2⟩, -⟩ := k
    have h3 := h2 vs.length
    simp only [List.getElem?_concat_length, Option.join_some] at h3
    cases ho : w.objs[vs.length]?.join with
    | none => rw [ho] at h3; exact h3.elim
    | some o =>
      rw [ho] at h3
      have ho' : w.objs[vs.length]? = some (some o) := by
        cases hx : w.objs[vs.length]? with
        | none => rw [hx] at ho; cases ho
        | some y => rw [hx] at ho; simp at ho; rw [ho]
      obtain ⟨a1, a2, a3⟩ := h3
      exact ⟨w, o, h1, ho', a2, by rw [a3, a1]; rfl⟩
  · intro hc
    rw [if_neg (by simp [SolverVal.seesCopy]; omega)] at k
    exact k

/-- **C99, negation.**  After any program, a `ParSolver` or a `ParSmoother` can be moved from, and the destruction of what is left behind has
undefined behaviour. -/
theorem C99_move_base (r : Csr α → Csr α) (kind : SolverKind) (hk : kind = .base ∨ kind = .smoother) (ops : List (LifeStmt (SolverObj.Args α) Unit))
    {vs : List (Option (SolverVal α))} (h : (SolverVal.vals r kind).run ops [] = .ok vs) {i : Nat} {v : SolverVal α} (hi : vs[i]? = some (some v)) :
    (∃ w, LifeStore.run (SolverObj.cls r kind) (ops ++ [.move i]) ⟨[], []⟩ = .ok w) ∧
    LifeStore.run (SolverObj.cls r kind) (ops ++ [.move i, .destroy i]) ⟨[], []⟩ = .error .undefinedBehaviour := by
  have e : (SolverVal.vals r kind).step vs (.move i) = .ok (vs.set i (some .junk) ++ [some v]) := by
    simp only [LifeVals.step, LifeVals.get_ok hi, ok_bind]
    rcases hk with rfl | rfl <;> rfl
  have hl := (List.getElem?_eq_some_iff.mp hi).1
  constructor
  · have k := C99_values_partial r kind (ops ++ [.move i])
    rw [Cls.Follows, LifeVals.run_append _ _ _ h, e] at k
    obtain ⟨w, h1, -⟩ := k
    exact ⟨w, h1⟩
  · have k := C99_values_partial r kind (ops ++ [.move i, .destroy i])
    have e2 : (SolverVal.vals r kind).run (ops ++ [.move i, .destroy i]) [] = .error .undefinedBehaviour := by
      rw [LifeVals.run_more _ _ _ h]
      have g : LifeVals.get (vs.set i (some (SolverVal.junk : SolverVal α)) ++ [some v]) i = .ok .junk :=
        LifeVals.get_ok (by rw [List.getElem?_append_left (by simpa using hl)]; simp [hl])
      simp only [LifeVals.run, List.foldlM_cons, e, ok_bind]
      simp only [LifeVals.step, g, ok_bind]
      rfl
    rw [Cls.Follows, e2] at k
    exact k

/-- A matrix on one process, on the communicator `comm`. -/
def C99_matrix (comm : Int) : ParMatVal Int := .full comm 0 true ⟨1, 1, [0, 1, 1], [0, 1, 1], ⟨1, 1, [0, 1], [0], [5]⟩, ⟨1, 0, [0, 0], [], []⟩, []⟩

/-- Two solvers, a move, a swap and a move assignment. -/
def C99_program : List (LifeStmt (SolverObj.Args Int) Unit) :=
  [.make (.all (C99_matrix 3) ⟨10, 1, true⟩), .make (.all (C99_matrix 3) ⟨20, 2, false⟩), .move 0, .swap 0 1, .assignMove 0 2, .update 0 ()]

/-- The settings that products with a solver of a program work with. -/
def C99_seen (kind : SolverKind) (ops : List (LifeStmt (SolverObj.Args Int) Unit)) (i : Nat) : Res (Option (SolverSettings Int)) := do
  let w ← LifeStore.run (SolverObj.cls id kind) ops ⟨[], []⟩
  let o ← w.obj i
  let x ← o.mult kind w.mem
  .ok x.2

example : C99_seen .boomer C99_program 0 = .ok (some ⟨10, 1, true⟩) := by decide +kernel
example : C99_seen .sails C99_program 0 = .ok (some ⟨10, 1, true⟩) := by decide +kernel
example : C99_seen .cg C99_program 0 = .ok (some ⟨10, 1, true⟩) := by decide +kernel
example : C99_seen .diag C99_program 0 = .ok none := by decide +kernel
example : ∀ op ∈ C99_program, op.copies = false := by decide
example : C99_seen .smoother [.make (.all (C99_matrix 3) ⟨0, 0, true⟩), .make (.all (C99_matrix 3) ⟨0, 0, true⟩), .copy 0, .assign 1 2, .destroy 0, .update 1 ()] 1 =
    .ok none := by decide +kernel
example : C99_seen .smoother (C99_program.take 3 ++ [.destroy 0]) 1 = .error .undefinedBehaviour := by decide +kernel
example : C99_seen .boomer (C99_program ++ [.copy 0]) 3 = .error .undefinedBehaviour := by decide +kernel
example : C99_seen .cg (C99_program ++ [.copy 0]) 3 = .ok none := by decide +kernel

example : ∃ vs, (SolverVal.vals id .sails).run C99_program [] = .ok vs ∧ vs[0]? = some (some (.works true (C99_matrix 3) ⟨10, 1, true⟩ (some ⟨10, 1, true⟩))) :=
  ⟨_, rfl, rfl⟩

example : ∃ vs, (SolverVal.vals id .base).run [.make (.all (C99_matrix 3) ⟨10, 1, true⟩)] [] = .ok vs ∧
    vs[0]? = some (some (.works true (C99_matrix 3) ⟨10, 1, true⟩ none)) := ⟨_, rfl, rfl⟩

example : (do
    let w ← LifeStore.run (SolverObj.cls id .cg) (C99_program ++ [LifeStmt.destroy 1, .destroy 0, .destroy 2]) ⟨[], []⟩
    .ok (w.mem.filter Option.isSome)) = .ok [] := by decide +kernel

end Linalg
