import Verif.Proof.HandlesLaw

/-!
# What can be seen of the objects
-/

namespace Linalg
open Cpp

variable {α C O V A U : Type}

theorem LifeStore.Holds.shows {R : Mem C → O → V → List Nat → Prop} {P : Mem C → O → V → Prop} {w : LifeStore C O} {vs : List (Option V)}
    (h : w.Holds R vs) (hp : ∀ {m o v s}, R m o v s → P m o v) : w.Shows P vs := by
  obtain ⟨hl, own, h1, -, -⟩ := h
  refine ⟨hl, fun i => ?_⟩
  have := h1 i
  cases ho : w.objs[i]?.join <;> cases hv : vs[i]?.join <;> rw [ho, hv] at this
  · trivial
  · exact this
  · exact this
  · exact hp this.1

theorem LifeStore.Holds.clean {R : Mem C → O → V → List Nat → Prop} {w : LifeStore C O} {vs : List (Option V)}
    (h : w.Holds R vs) (hn : ∀ i : Nat, vs[i]?.join = none) : w.Clean := by
  obtain ⟨hl, own, h1, -, h3⟩ := h
  intro k hk
  obtain ⟨i, hi⟩ := h3 k hk
  have := h1 i
  rw [hn i] at this
  cases ho : w.objs[i]?.join <;> rw [ho] at this
  · rw [this] at hi; cases hi
  · exact this

theorem ParVecObj.Stands.shows {m : Mem (HCell α)} {o : ParVecObj} {v : ParVecVal α} {s : List Nat} (h : Stands m o v s) : Shows m o v := by
  cases v with
  | full c v =>
    obtain ⟨h1, h2, h3, h, l, h4, h5, -, -⟩ := h
    simp only [cells, Mem.has_cons] at h5
    obtain ⟨b1, b2, b3, b4, -⟩ := h5
    constructor
    · simp [own, Hypre.reals, Hypre.ints, Hypre.deref, ok_bind, Mem.get_ok b1, Mem.get_ok b2, h3, h1]
    · simp [seen, Hypre.reals, Hypre.ints, Hypre.deref, ok_bind, Mem.get_ok b1, Mem.get_ok b2, Mem.get_ok b3, Mem.get_ok b4, h4, h1]
  | void b =>
    obtain ⟨h1, h2, h3, h5, -, -⟩ := h
    simp only [Mem.has_cons] at h5
    refine ⟨?_, h2⟩
    simp [Hypre.reals, Hypre.deref, ok_bind, Mem.get_ok h5.1]

theorem CsrObj.val_eq {m : Mem (HCell α)} {o : CsrObj} {D : Csr α} (h : m.Has (o.cells D)) (hr : o.rows = D.rows) (hc : o.cols = D.cols) :
    o.val m = .ok D := by
  simp only [cells, Mem.has_cons] at h
  obtain ⟨b1, b2, b3, -⟩ := h
  simp only [val, Hypre.ints, Hypre.reals, Hypre.deref, ok_bind, Mem.get_ok b1, Mem.get_ok b2, Mem.get_ok b3, hr, hc]

open Hypre in
theorem ParMatObj.seen_eq {m : Mem (HCell α)} {o : ParMatObj} {M : ParMat α} {d f p n a : Nat} {w : Option (Nat × Nat × Nat × Nat)}
    (h : m.Has (o.ownCells M w ++ o.hypCells M d f a n p)) (hA : o.A = .to a) (hM : Fits M) : o.seen m = .ok (o.op.comm, M) := by
  obtain ⟨h, g⟩ := Mem.has_append.mp h
  simp only [hypCells, Mem.has_cons] at g
  obtain ⟨g1, g2, g3, -, -, -⟩ := g
  simp only [ownCells, Mem.has_append, CsrObj.cells, Mem.has_cons] at h
  obtain ⟨k, ⟨a1, a2, a3, -⟩, ⟨b1, b2, b3, -⟩, c1, -⟩ := h
  have r1 : m[o.op.rowStarts]? = some (some (.ints M.rowStarts)) := k (o.op.rowStarts, .ints M.rowStarts) (by simp [ParOpObj.cells])
  have r2 : m[o.op.colStarts]? = some (some (.ints M.colStarts)) := k (o.op.colStarts, .ints M.colStarts) (by simp [ParOpObj.cells])
  simp only [seen, hA, deref, ok_bind, Mem.get_ok g3, ints, Mem.get_ok r1, Mem.get_ok r2, Mem.get_ok c1, csrOf, Mem.get_ok g1, Mem.get_ok g2, Mem.get_ok a1,
    Mem.get_ok a2, Mem.get_ok b1, Mem.get_ok b2, reals, Mem.get_ok a3, Mem.get_ok b3, hM.drows, hM.dcols, hM.frows]
  congr 2
  have e1 := hM.drows
  have e2 := hM.dcols
  have e3 := hM.frows
  cases M with
  | mk r c rs cs D F cm => cases D; cases F; simp_all

open Hypre in
theorem Hypre.setData_same {m : Mem (HCell α)} {x l : Nat} {c g : Int} {st p : CPtr} {a b e : Bool} (h1 : m[x]? = some (some (.pvec c g st (.to l) a b)))
    (h2 : m[l]? = some (some (.loc p e))) : setData m x p = .ok m := by
  simp only [setData, localVec, Mem.get_ok h1, ok_bind, deref, Mem.get_ok h2, Mem.put_ok h2]
  congr 1
  apply List.ext_getElem?
  intro i
  by_cases hi : i = l
  · subst hi; rw [h2]; simp [(List.getElem?_eq_some_iff.mp h2).1]
  · rw [List.getElem?_set_ne (Ne.symm hi)]

open Hypre in
theorem ParMatObj.Stands.shows {m : Mem (HCell α)} {o : ParMatObj} {v : ParMatVal α} {s : List Nat} (h : Stands m o v s) : Shows m o v := by
  cases v with
  | full comm rank views M =>
    obtain ⟨h1, h2, h3, h4, h5, d, f, a, n, p, w, h6, h7, h8, h9, -, -⟩ := h
    have hs := seen_eq h9 h6 h4
    rw [h1] at hs
    obtain ⟨k, -⟩ := Mem.has_append.mp h9
    obtain ⟨k1, k2⟩ := Mem.has_append.mp k
    obtain ⟨k2, k3⟩ := Mem.has_append.mp k2
    obtain ⟨k3, -⟩ := Mem.has_append.mp k3
    refine ⟨CsrObj.val_eq k2 h5.drows h5.dcols, CsrObj.val_eq k3 h5.frows h5.fcols, hs, ?_⟩
    cases w with
    | none =>
      subst h8
      simp only [Option.isSome_none, Bool.false_eq_true, if_false]
      simp only [mult, h7.1, deref]
      rfl
    | some w =>
      subst h8
      obtain ⟨hx, lx, hb, lb⟩ := w
      simp only [ParOpObj.cells, ParOpObj.vecCells, List.cons_append, List.nil_append, Mem.has_cons] at k1
      obtain ⟨-, -, b1, b2, b3, b4, -⟩ := k1
      simp only [Option.isSome_some, if_true]
      refine ⟨m, ?_⟩
      simp only [mult, h7.1, h7.2, deref, ok_bind, setData_same b2 b1, setData_same b4 b3, hs]
  | void =>
    obtain ⟨h1, h2, h3, h4, h5, k, -, -⟩ := h
    obtain ⟨k1, k2⟩ := Mem.has_append.mp k
    obtain ⟨k2, k3⟩ := Mem.has_append.mp k2
    obtain ⟨k3, -⟩ := Mem.has_append.mp k3
    exact ⟨CsrObj.val_eq k2 h5.drows h5.dcols, CsrObj.val_eq k3 h5.frows h5.fcols, h3⟩

theorem Lawful.run_shows {K : Cls C O A U} {S : LifeVals V A U} {R : Mem C → O → V → List Nat → Prop} (L : Lawful K S R) {P : Mem C → O → V → Prop}
    (hp : ∀ {m o v s}, R m o v s → P m o v) (ops : List (LifeStmt A U)) : K.Follows S P ops := by
  unfold Cls.Follows
  have h := L.run_holds ops
  cases hv : S.run ops [] with
  | ok vs =>
    rw [hv] at h
    obtain ⟨w, h1, h2⟩ := h
    exact ⟨w, h1, h2.shows hp, h2.clean⟩
  | error e =>
    rw [hv] at h
    exact h

end Linalg
