import Verif.Model.SolverViews
import Verif.Spec.Alias
import Verif.Proof.Alias
import Verif.Props.Solvers

/-! # C127: the Krylov solvers when right-hand side and solution share memory -/

namespace Linalg
open Cpp

variable {α : Type}

namespace View
variable [Zero α]

theorem sim_updateFrom {x : View} {m m' z : List α} (h : x.Wrote m m' z) (hx : x.InMem m) (f : α → α → α) (p : List α) :
    Sim (fun z m' => x.Wrote m m' z) (Vec.update f z p) (x.updateFrom f p m') := by
  have hz : (z.length : Int) = x.size := by rw [← h.elems_eq, length_elems hx.size_nonneg]
  unfold Vec.update View.updateFrom
  have : (cassert (p.length = z.length)) = (cassert ((p.length : Int) = x.size)) := by
    unfold cassert
    by_cases e : p.length = z.length
    · rw [if_pos e, if_pos (by omega)]
    · rw [if_neg e, if_neg (by omega)]
  rw [this]
  refine Sim.same (fun _ _ => ?_)
  rw [hz]
  refine forUp_mirror h (fun j s t hj _ hst => Sim.same (fun b _ => ?_))
  rw [hst.get_own hx hj]
  exact Sim.same (fun a _ => hst.put hx hj _)

theorem sim_updateFrom2 {x : View} {m m' z : List α} (h : x.Wrote m m' z) (hx : x.InMem m) (size : Int) (f : α → α → α) (y : List α) :
    Sim (fun z m' => x.Wrote m m' z) (Vec.update2 size f z y) (x.updateFrom2 size f y m') := by
  unfold Vec.update2 View.updateFrom2
  refine forUp_mirror h (fun j s t hj _ hst => ?_)
  rw [hst.get_own hx hj]
  exact Sim.same (fun a _ => Sim.same (fun b _ => hst.put hx hj _))

end View

namespace Pcg
variable [Field α] [LinearOrder α]

/-- The same work vectors, and the memory holds the solution vector at the place of the view and is otherwise as before. -/
structure Holds (x : View) (m : List α) (s t : PcgState α) : Prop where
  wrote : x.Wrote m t.x s.x
  rest : t = { s with x := t.x }

theorem sim_step (S : Pcg α) {x : View} {m : List α} (hx : x.InMem m) (tol : α) {s t : PcgState α} (h : Holds x m s t) :
    Sim (fun a b => a.1 = b.1 ∧ Holds x m a.2 b.2) (S.step tol s) (S.stepView x tol t) := by
  obtain ⟨hw, hr⟩ := h
  obtain ⟨tx, r, p, z, Ap, n⟩ := t
  obtain ⟨sx, r', p', z', Ap', n'⟩ := s
  simp only [PcgState.mk.injEq, true_and] at hr
  obtain ⟨rfl, rfl, rfl, rfl, rfl⟩ := hr
  unfold step stepView
  refine Sim.same (fun Ap _ => Sim.same (fun pAp _ => Sim.same (fun rz _ => Sim.same (fun al _ => Sim.same (fun _ _ => ?_)))))
  refine (View.sim_updateFrom hw hx _ _).bind (fun z m' hw' => ?_)
  refine Sim.same (fun de _ => Sim.same (fun r _ => Sim.same (fun z _ => Sim.same (fun nu _ => ?_))))
  split
  · exact Sim.ok ⟨rfl, hw', rfl⟩
  · exact Sim.same (fun be _ => Sim.same (fun p _ => Sim.ok ⟨rfl, hw', rfl⟩))

theorem sim_loop (S : Pcg α) {x : View} {m : List α} (hx : x.InMem m) (tol : α) (fuel : Nat) (k : Int) {s t : PcgState α}
    (h : Holds x m s t) :
    Sim (fun a b => a.1 = b.1 ∧ Holds x m a.2 b.2) (S.loop tol fuel k s) (S.loopView x tol fuel k t) := by
  induction fuel generalizing k s t with
  | zero =>
    unfold loop loopView
    refine (sim_step S hx tol h).bind (fun a b hab => ?_)
    rw [hab.1]
    exact Sim.ok ⟨rfl, hab.2⟩
  | succ n ih =>
    unfold loop loopView
    refine (sim_step S hx tol h).bind (fun a b hab => ?_)
    rw [hab.1]
    split
    · exact Sim.ok ⟨rfl, hab.2⟩
    · exact ih (k + 1) hab.2

theorem sim_mult (S : Pcg α) {b x : View} {m : List α} (hb : b.InMem m) (hx : x.InMem m) (w : PcgState α) :
    Sim (fun a c => a.1 = c.1 ∧ Holds x m a.2 c.2) (S.mult (b.elems m) (x.elems m) w) (S.multView b x m w) := by
  unfold mult multView
  rw [View.length_elems hb.size_nonneg, View.length_elems hx.size_nonneg]
  refine Sim.same (fun _ _ => Sim.same (fun _ _ => ?_))
  have hs : Sim (Holds x m) (S.start (b.elems m) { w with x := x.elems m, applied := 0 })
      (S.startView b x { w with x := m, applied := 0 }) := by
    unfold start startView
    simp only [viewElems_eq hb, viewElems_eq hx, ok_bind]
    exact Sim.same (fun Ap _ => Sim.same (fun r _ => Sim.same (fun z _ => Sim.ok ⟨View.wrote_refl x m, rfl⟩)))
  refine hs.bind (fun s t hst => ?_)
  have hz : t.z = s.z := by rw [hst.rest]
  have hr : t.r = s.r := by rw [hst.rest]
  rw [hz, hr]
  refine Sim.same (fun r0 _ => Sim.same (fun now _ => ?_))
  split
  · exact Sim.ok ⟨rfl, hst⟩
  · exact sim_loop S hx _ _ _ hst

end Pcg

namespace Minres
variable [Field α] [LinearOrder α]

/-- The same work vectors and numbers, and the memory holds the solution vector at the place of the view and is otherwise as before. -/
structure Holds (x : View) (m : List α) (s t : MinresState α) : Prop where
  wrote : x.Wrote m t.x s.x
  rest : t = { s with x := t.x }

theorem Holds.swap {x : View} {m : List α} {s t : MinresState α} (h : Holds x m s t) : Holds x m (swapVecs s) (swapVecs t) := by
  refine ⟨h.wrote, ?_⟩
  rw [h.rest]
  rfl

theorem sim_step (S : Minres α) {x : View} {m : List α} (hx : x.InMem m) (tol : α) {s t : MinresState α} (h : Holds x m s t) :
    Sim (fun a b => a.1 = b.1 ∧ Holds x m a.2 b.2) (S.step tol s) (S.stepView x tol t) := by
  obtain ⟨hw, hr⟩ := h
  obtain ⟨tx, w0, w1, v0, v1, q, be, et, g, g2, si, s2, n⟩ := t
  obtain ⟨sx, w0', w1', v0', v1', q', be', et', g', g2', si', s2', n'⟩ := s
  simp only [MinresState.mk.injEq, true_and] at hr
  obtain ⟨rfl, rfl, rfl, rfl, rfl, rfl, rfl, rfl, rfl, rfl, rfl, rfl⟩ := hr
  unfold step stepView
  refine Sim.same (fun v1 _ => Sim.same (fun q _ => Sim.same (fun al _ => Sim.same (fun v0 _ => Sim.same (fun d _ => ?_)))))
  refine Sim.same (fun c1 _ => Sim.same (fun c3 _ => Sim.same (fun c2 _ => Sim.same (fun w0 _ => Sim.same (fun g2 _ => ?_)))))
  refine (View.sim_updateFrom2 hw hx _ _ _).bind (fun z m' hw' => ?_)
  exact Sim.same (fun s2 _ => Sim.ok ⟨rfl, hw', rfl⟩)

theorem sim_loop (S : Minres α) {x : View} {m : List α} (hx : x.InMem m) (tol : α) (fuel : Nat) (k : Int) {s t : MinresState α}
    (h : Holds x m s t) :
    Sim (fun a b => a.1 = b.1 ∧ Holds x m a.2 b.2) (S.loop tol fuel k s) (S.loopView x tol fuel k t) := by
  induction fuel generalizing k s t with
  | zero => exact Sim.ok ⟨rfl, h⟩
  | succ n ih =>
    unfold loop loopView
    refine (sim_step S hx tol h).bind (fun a b hab => ?_)
    rw [hab.1]
    split
    · exact Sim.ok ⟨rfl, hab.2⟩
    · exact ih (k + 1) hab.2.swap

theorem sim_mult (S : Minres α) {b x : View} {m : List α} (hb : b.InMem m) (hx : x.InMem m) (w : MinresState α) :
    Sim (fun a c => a.1 = c.1 ∧ Holds x m a.2 c.2) (S.mult (b.elems m) (x.elems m) w) (S.multView b x m w) := by
  unfold mult multView
  rw [View.length_elems hb.size_nonneg, View.length_elems hx.size_nonneg]
  refine Sim.same (fun _ _ => Sim.same (fun _ _ => ?_))
  have hs : Sim (Holds x m) (S.start (b.elems m) (x.elems m) w) (S.startView b x m w) := by
    unfold start startView
    simp only [viewElems_eq hb, viewElems_eq hx, ok_bind]
    exact Sim.same (fun q _ => Sim.same (fun v1 _ => Sim.same (fun d _ => Sim.ok ⟨View.wrote_refl x m, rfl⟩)))
  refine hs.bind (fun s t hst => ?_)
  have hz : t.beta = s.beta := by rw [hst.rest]
  rw [hz]
  exact sim_loop S hx _ _ _ hst

end Minres

namespace Pminres
variable [Field α] [LinearOrder α]

/-- The same work vectors and numbers, and the memory holds the solution vector at the place of the view and is otherwise as before. -/
structure Holds (x : View) (m : List α) (s t : PminresState α) : Prop where
  wrote : x.Wrote m t.x s.x
  rest : t = { s with x := t.x }

theorem Holds.swap {x : View} {m : List α} {s t : PminresState α} (h : Holds x m s t) : Holds x m (swapVecs s) (swapVecs t) := by
  refine ⟨h.wrote, ?_⟩
  rw [h.rest]
  rfl

theorem sim_step (S : Minres α) (M : Op α) {x : View} {m : List α} (hx : x.InMem m) (tol : α) {s t : PminresState α} (h : Holds x m s t) :
    Sim (fun a b => a.1 = b.1 ∧ Holds x m a.2 b.2) (step S M tol s) (stepView S M x tol t) := by
  obtain ⟨hw, hr⟩ := h
  obtain ⟨tx, w0, w1, v0, v1, u1, q, be, et, g, g2, si, s2, n⟩ := t
  obtain ⟨sx, w0', w1', v0', v1', u1', q', be', et', g', g2', si', s2', n'⟩ := s
  simp only [PminresState.mk.injEq, true_and] at hr
  obtain ⟨rfl, rfl, rfl, rfl, rfl, rfl, rfl, rfl, rfl, rfl, rfl, rfl, rfl⟩ := hr
  unfold step stepView
  refine Sim.same (fun v1 _ => Sim.same (fun u1 _ => Sim.same (fun q _ => Sim.same (fun al _ => Sim.same (fun v0 _ => ?_)))))
  refine Sim.same (fun q _ => Sim.same (fun d _ => ?_))
  refine Sim.same (fun c1 _ => Sim.same (fun c3 _ => Sim.same (fun c2 _ => Sim.same (fun w0 _ => Sim.same (fun g2 _ => ?_)))))
  refine (View.sim_updateFrom2 hw hx _ _ _).bind (fun z m' hw' => ?_)
  exact Sim.same (fun s2 _ => Sim.ok ⟨rfl, hw', rfl⟩)

theorem sim_loop (S : Minres α) (M : Op α) {x : View} {m : List α} (hx : x.InMem m) (tol : α) (fuel : Nat) (k : Int) {s t : PminresState α}
    (h : Holds x m s t) :
    Sim (fun a b => a.1 = b.1 ∧ Holds x m a.2 b.2) (loop S M tol fuel k s) (loopView S M x tol fuel k t) := by
  induction fuel generalizing k s t with
  | zero => exact Sim.ok ⟨rfl, h⟩
  | succ n ih =>
    unfold loop loopView
    refine (sim_step S M hx tol h).bind (fun a b hab => ?_)
    rw [hab.1]
    split
    · exact Sim.ok ⟨rfl, hab.2⟩
    · exact ih (k + 1) hab.2.swap

theorem sim_mult (S : Minres α) (M : Op α) {b x : View} {m : List α} (hb : b.InMem m) (hx : x.InMem m) (w : PminresState α) :
    Sim (fun a c => a.1 = c.1 ∧ Holds x m a.2 c.2) (mult S M (b.elems m) (x.elems m) w) (multView S M b x m w) := by
  unfold mult multView
  rw [View.length_elems hb.size_nonneg, View.length_elems hx.size_nonneg]
  refine Sim.same (fun _ _ => Sim.same (fun _ _ => ?_))
  have hs : Sim (Holds x m) (start S M (b.elems m) (x.elems m) w) (startView S M b x m w) := by
    unfold start startView
    simp only [viewElems_eq hb, viewElems_eq hx, ok_bind]
    exact Sim.same (fun q _ => Sim.same (fun v1 _ => Sim.same (fun u1 _ => Sim.same (fun d _ => Sim.ok ⟨View.wrote_refl x m, rfl⟩))))
  refine hs.bind (fun s t hst => ?_)
  have hz : t.beta = s.beta := by rw [hst.rest]
  rw [hz]
  exact sim_loop S M hx _ _ _ hst

end Pminres

/-! ## The statements -/

section
variable [Field α] [LinearOrder α]

/-- **C127.**  `PCGSolver::Mult(b, x)`, for two views of one memory that overlap in any way or are the same: the same error, or the same number of
iterations and work vectors as for two separate vectors with these elements; the solution is where `x` is and nothing else in memory changed. -/
theorem C127_pcg (S : Pcg α) (b x : View) (m : List α) (hb : b.InMem m) (hx : x.InMem m) (w : PcgState α) :
    match S.mult (b.elems m) (x.elems m) w with
    | .ok (N, st) => ∃ m', S.multView b x m w = .ok (N, { st with x := m' }) ∧ x.Wrote m m' st.x
    | .error e => S.multView b x m w = .error e := by
  have h := S.sim_mult hb hx w
  cases e : S.mult (b.elems m) (x.elems m) w with
  | error e' => rw [e] at h; exact h
  | ok p =>
    rw [e] at h
    obtain ⟨⟨N, t⟩, h1, h2, h3⟩ := h
    obtain ⟨N', s⟩ := p
    obtain rfl : N' = N := h2
    exact ⟨t.x, by rw [h1]; exact congrArg (fun u => Except.ok (N', u)) h3.rest, h3.wrote⟩

/-- **C127.**  `MINRESSolver::Mult(b, x)` likewise. -/
theorem C127_minres (S : Minres α) (b x : View) (m : List α) (hb : b.InMem m) (hx : x.InMem m) (w : MinresState α) :
    match S.mult (b.elems m) (x.elems m) w with
    | .ok (N, st) => ∃ m', S.multView b x m w = .ok (N, { st with x := m' }) ∧ x.Wrote m m' st.x
    | .error e => S.multView b x m w = .error e := by
  have h := S.sim_mult hb hx w
  cases e : S.mult (b.elems m) (x.elems m) w with
  | error e' => rw [e] at h; exact h
  | ok p =>
    rw [e] at h
    obtain ⟨⟨N, t⟩, h1, h2, h3⟩ := h
    obtain ⟨N', s⟩ := p
    obtain rfl : N' = N := h2
    exact ⟨t.x, by rw [h1]; exact congrArg (fun u => Except.ok (N', u)) h3.rest, h3.wrote⟩

/-- **C127.**  `PMINRESSolver::Mult(b, x)` likewise. -/
theorem C127_pminres (S : Minres α) (M : Op α) (b x : View) (m : List α) (hb : b.InMem m) (hx : x.InMem m) (w : PminresState α) :
    match Pminres.mult S M (b.elems m) (x.elems m) w with
    | .ok (N, st) => ∃ m', Pminres.multView S M b x m w = .ok (N, { st with x := m' }) ∧ x.Wrote m m' st.x
    | .error e => Pminres.multView S M b x m w = .error e := by
  have h := Pminres.sim_mult S M hb hx w
  cases e : Pminres.mult S M (b.elems m) (x.elems m) w with
  | error e' => rw [e] at h; exact h
  | ok p =>
    rw [e] at h
    obtain ⟨⟨N, t⟩, h1, h2, h3⟩ := h
    obtain ⟨N', s⟩ := p
    obtain rfl : N' = N := h2
    exact ⟨t.x, by rw [h1]; exact congrArg (fun u => Except.ok (N', u)) h3.rest, h3.wrote⟩

end

section
variable {K : Type} [Field K] [LinearOrder K] [IsStrictOrderedRing K]

/-- **C127.**  Solving in place: `solver.Mult(v, v)`, where the right-hand side is overwritten with the solution and serves as first guess.  For a
symmetric positive definite matrix (and preconditioner) and exact arithmetic, if the tolerance can be met and `max_iter` is above `n`, the call returns
after at most `n` iterations, the residual of what `v` then shows, with respect to what `v` showed before the call, meets the tolerance, and nothing
outside the view changed. -/
theorem C127_inPlace (S : Pcg K) (n : Nat) (a p : Int → Int → K) (h : S.Ok n a p) (hd : S.Spd n a p) (v : View) (m : List K) (hv : v.InMem m)
    (hn : v.size = n) (w : PcgState K) (hlim : (n : Int) < S.maxIter)
    (htol : 0 < max (dotFn n (S.prec n p (residFn n a (v.elems m) (v.elems m))) (residFn n a (v.elems m) (v.elems m)) * S.relTol * S.relTol)
      (S.absTol * S.absTol)) :
    ∃ N st, S.multView v v m w = .ok (N, st) ∧ N ≤ max 1 (n : Int) ∧
      dotFn n (S.prec n p (residFn n a (v.elems m) (v.elems st.x))) (residFn n a (v.elems m) (v.elems st.x))
        < max (dotFn n (S.prec n p (residFn n a (v.elems m) (v.elems m))) (residFn n a (v.elems m) (v.elems m)) * S.relTol * S.relTol)
          (S.absTol * S.absTol) ∧
      st.x.length = m.length ∧ ∀ i : Int, ¬ v.Has i → vecAt st.x i = vecAt m i := by
  have hl : (v.elems m).length = n := by
    have := View.length_elems (m := m) hv.size_nonneg
    omega
  obtain ⟨N, st, e, hN, -, hr⟩ := C44_terminates S n a p h hd (v.elems m) (v.elems m) hl hl w hlim htol
  have k := C127_pcg S v v m hv hv w
  rw [e] at k
  obtain ⟨m', k1, k2⟩ := k
  refine ⟨N, _, k1, by push_cast at hN; exact hN, ?_, k2.length_eq, k2.rest_eq⟩
  show dotFn n (S.prec n p (residFn n a (v.elems m) (v.elems m'))) (residFn n a (v.elems m) (v.elems m')) < _
  rw [k2.elems_eq]
  exact hr

end

/-! ## Examples -/

/-- `solver.Mult(v, v)` where `v` is the middle of a larger vector. -/
example : (exPcg.multView ⟨1, 2⟩ ⟨1, 2⟩ [7, 3, 4, 8] ⟨[], [], [], [], [], 0⟩).map (fun t => (t.1, t.2.x)) = .ok (2, [7, 1, 1, 8]) := by decide +kernel

/-- The two views overlap by one element. -/
example : (exPcg.multView ⟨0, 2⟩ ⟨1, 2⟩ [3, 4, 8] ⟨[], [], [], [], [], 0⟩).map (fun t => (t.1, t.2.x)) = .ok (2, [3, 1, 1]) := by decide +kernel

/-- MINRES in place. -/
example : ((⟨diagOp [1, -1], 3, 0, 1 / 1000, fun x => if x = 64 then 8 else if x = 1 then 1 else 0, Vec.inner⟩ : Minres Rat).multView ⟨1, 2⟩ ⟨1, 2⟩
    [7, 3, 4, 8] ⟨[], [0, 0], [0, 0], [0, 0], [0, 0], [0, 0], 0, 0, 0, 0, 0, 0, 0⟩).map (fun t => (t.1, t.2.x)) = .ok (1, [7, 3, -4, 8]) := by
  decide +kernel

/-- PMINRES in place, with the identity as preconditioner. -/
example : (Pminres.multView (⟨diagOp [1, -1], 3, 0, 1 / 1000, fun x => if x = 64 then 8 else if x = 1 then 1 else 0, Vec.inner⟩ : Minres Rat)
    (diagOp [1, 1]) ⟨1, 2⟩ ⟨1, 2⟩ [7, 3, 4, 8] ⟨[], [0, 0], [0, 0], [0, 0], [0, 0], [0, 0], [0, 0], 0, 0, 0, 0, 0, 0, 0⟩).map
    (fun t => (t.1, t.2.x)) = .ok (1, [7, 3, -4, 8]) := by
  decide +kernel

example : (⟨1, 2⟩ : View).InMem [(7 : ℚ), 3, 4, 8] := ⟨by decide, by decide, by decide⟩

example : ∃ N st, exPcg.multView ⟨1, 2⟩ ⟨1, 2⟩ [7, 3, 4, 8] ⟨[], [], [], [], [], 0⟩ = .ok (N, st) ∧ N ≤ 2 ∧ vecAt st.x 0 = 7 ∧ vecAt st.x 3 = 8 := by
  obtain ⟨N, st, e, hN, -, -, k⟩ := C127_inPlace exPcg 2 exSpd.coef exSpd.coef exPcg_ok exPcg_spd ⟨1, 2⟩ [7, 3, 4, 8] ⟨by decide, by decide, by decide⟩ rfl
    ⟨[], [], [], [], [], 0⟩ (by decide) (lt_max_of_lt_right (by decide +kernel))
  exact ⟨N, st, e, hN, k 0 (by unfold View.Has; simp), k 3 (by unfold View.Has; simp)⟩

end Linalg
