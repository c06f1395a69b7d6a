import Verif.Proof.HandlesShow

/-!
# Distributed vectors (C97) and matrices (C98) and the hypre objects they own
-/

namespace Linalg
open Cpp

variable {α : Type}

theorem LifeVals.run_append {V A U : Type} (S : LifeVals V A U) (ops : List (LifeStmt A U)) (op : LifeStmt A U) {vs : List (Option V)}
    (h : S.run ops [] = .ok vs) : S.run (ops ++ [op]) [] = S.step vs op := by
  unfold LifeVals.run at h ⊢
  rw [List.foldlM_append, h, ok_bind]
  simp

theorem LifeVals.get_ok {V : Type} {vs : List (Option V)} {i : Nat} {v : V} (h : vs[i]? = some (some v)) : LifeVals.get vs i = .ok v := by
  unfold LifeVals.get
  rw [h]

/-! ## C97 -/

/-- **C97.**  Any program of constructions, copies, moves, assignments, swaps, writes to elements and destructions of distributed
vectors does what it does on values, where an empty vector cannot be copied.  Each vector has its own value and hypre sees the same in
`pvect_`.  Nothing is used or given back after it was given back, and once every vector is destroyed nothing is left allocated. -/
theorem C97_values_partial (ops : List (LifeStmt (ParVecObj.Args α) (Int × α))) :
    ParVecObj.cls.Follows ParVecVal.vals ParVecObj.Shows ops :=
  ParVecObj.lawful.run_shows ParVecObj.Stands.shows ops

/-- **C97.**  After any program, copying a vector that is on a communicator gives an equal one, beside which the old ones are as before. -/
theorem C97_copy (ops : List (LifeStmt (ParVecObj.Args α) (Int × α))) {vs : List (Option (ParVecVal α))} (h : ParVecVal.vals.run ops [] = .ok vs) {i : Nat}
    {comm : Int} {v : ParVec α} (hi : vs[i]? = some (some (.full comm v))) :
    ∃ w, LifeStore.run ParVecObj.cls (ops ++ [.copy i]) ⟨[], []⟩ = .ok w ∧ w.Shows ParVecObj.Shows (vs ++ [some (.full comm v)]) := by
  have k := C97_values_partial (ops ++ [.copy i])
  have e : ParVecVal.vals.run (ops ++ [.copy i]) [] = .ok (vs ++ [some (.full comm v)]) := by
    rw [LifeVals.run_append _ _ _ h]
    simp only [LifeVals.step, LifeVals.get_ok hi, ok_bind]
    rfl
  rw [Cls.Follows, e] at k
  obtain ⟨w, h1, h2, -⟩ := k
  exact ⟨w, h1, h2⟩

/-- **C97, negation.**  After any program, copying a vector that was constructed by default or moved from has undefined behaviour. -/
theorem C97_copy_empty (ops : List (LifeStmt (ParVecObj.Args α) (Int × α))) {vs : List (Option (ParVecVal α))} (h : ParVecVal.vals.run ops [] = .ok vs)
    {i : Nat} {b : Bool} (hi : vs[i]? = some (some (.void b))) :
    LifeStore.run ParVecObj.cls (ops ++ [.copy i]) ⟨[], []⟩ = .error .undefinedBehaviour := by
  have k := C97_values_partial (ops ++ [.copy i])
  have e : ParVecVal.vals.run (ops ++ [.copy i]) [] = .error .undefinedBehaviour := by
    rw [LifeVals.run_append _ _ _ h]
    simp only [LifeVals.step, LifeVals.get_ok hi, ok_bind]
    rfl
  rw [Cls.Follows, e] at k
  exact k

/-- **C97, negation.**  `SetSize`, which the class inherits, may move the elements; hypre then looks at storage that was given back. -/
theorem C97_resize [Zero α] (m m1 : Mem (HCell α)) (comm : Int) (vect : List α) (part : List Int) (o : ParVecObj)
    (h : ParVecObj.make m (.vect comm vect part) = .ok (m1, o)) (n : Nat) :
    ∃ m2 o2, o.grow m1 n = .ok (m2, o2) ∧ Hypre.reals m2 (.to o2.data) = .ok (Cpp.resize vect n 0) ∧ o2.seen m2 = .error .undefinedBehaviour := by
  have k := ParVecObj.lawful.make m (.vect comm vect part)
  have a : ParVecObj.cls.make m (.vect comm vect part) = ParVecObj.make m (.vect comm vect part) := rfl
  have a1 : (ParVecVal.vals (α := α)).make (.vect comm vect part) =
    (do let v ← ParVec.ofVect vect part; if comm = 0 then .error .undefinedBehaviour else .ok (.full comm v)) := rfl
  rw [a, h] at k
  cases hv : (ParVecVal.vals (α := α)).make (.vect comm vect part) with
  | error e => rw [hv] at k; cases k
  | ok v =>
    rw [hv] at k
    obtain ⟨_, _, s, e, -, hs⟩ := k
    cases e
    rw [a1] at hv
    obtain ⟨u, hu, hv⟩ := bind_eq_ok.mp hv
    split at hv
    · cases hv
    · cases hv
      have hd : u.data = vect := by
        unfold ParVec.ofVect ParVec.init at hu
        repeat (obtain ⟨_, -, hu⟩ := bind_eq_ok.mp hu)
        cases hu
        rfl
      obtain ⟨h1, h2, h3, p, l, h4, h5, rfl, hn⟩ := hs
      simp only [ParVecObj.cells, Mem.has_cons] at h5
      obtain ⟨b1, b2, b3, b4, -⟩ := h5
      simp [ParVecObj.cells] at hn
      have l1 := (List.getElem?_eq_some_iff.mp b1).1
      have app : ∀ {k : Nat} {c : HCell α} (t : Option (HCell α)), m1[k]? = some (some c) → (m1 ++ [t])[k]? = some (some c) := by
        intro k c t hk
        rw [List.getElem?_append_left (List.getElem?_eq_some_iff.mp hk).1]; exact hk
      rw [hd] at b1
      refine ⟨(m1 ++ [some (HCell.reals (Cpp.resize vect n 0))]).set o.data none, { o with data := m1.length }, ?_, ?_, ?_⟩
      · simp only [ParVecObj.grow, Hypre.reals, Hypre.deref, ok_bind, Mem.get_ok b1, Mem.alloc, Mem.free_ok (app _ b1)]
      · have : ((m1 ++ [some (HCell.reals (Cpp.resize vect n 0))]).set o.data none)[m1.length]? = some (some (HCell.reals (Cpp.resize vect n 0))) := by
          rw [List.getElem?_set_ne (by omega)]; simp
        simp only [Hypre.reals, Hypre.deref, ok_bind, Mem.get_ok this]
      · have c2 : ((m1 ++ [some (HCell.reals (Cpp.resize vect n 0))]).set o.data none)[o.part]? = some (some (.ints u.part)) := by
          rw [List.getElem?_set_ne (by tauto)]; exact app _ b2
        have c3 : ((m1 ++ [some (HCell.reals (Cpp.resize vect n 0))]).set o.data none)[l]? = some (some (.loc (.to o.data) false)) := by
          rw [List.getElem?_set_ne (by tauto)]; exact app _ b3
        have c4 : ((m1 ++ [some (HCell.reals (Cpp.resize vect n 0))]).set o.data none)[p]? =
            some (some (.pvec o.comm u.globalSize (.to o.part) (.to l) true false)) := by
          rw [List.getElem?_set_ne (by tauto)]; exact app _ b4
        have c1 : ((m1 ++ [some (HCell.reals (Cpp.resize vect n 0))]).set o.data none)[o.data]? = some none := by
          rw [List.getElem?_set_self (by rw [List.length_append]; omega)]
        simp only [ParVecObj.seen, h4, Hypre.deref, ok_bind, Mem.get_ok c4, Hypre.ints, Mem.get_ok c2, Mem.get_ok c3, Hypre.reals]
        simp [Mem.get, c1, bind, Except.bind]

/-- Two vectors, a copy, a move, a move assignment, and a write through the copy. -/
def C97_program : List (LifeStmt (ParVecObj.Args Int) (Int × Int)) :=
  [.make (.vect 7 [1, 2] [0, 2, 5]), .make (.val 7 9 [2, 5, 5]), .copy 0, .move 1, .update 2 (1, 8), .assignMove 1 2, .swap 0 3]

example : (ParVecVal.vals.run C97_program []).toOption.map (fun l => l.map (fun v => match v with
    | some (.full c v) => some (c, v.data, v.globalSize)
    | _ => none)) = some [some (7, [9, 9, 9], 5), some (7, [1, 8], 5), none, some (7, [1, 2], 5)] := by decide +kernel

example : (do
    let w ← LifeStore.run ParVecObj.cls C97_program ⟨[], []⟩
    let o ← w.obj 1
    o.seen w.mem) = .ok (7, ⟨[1, 8], [0, 2, 5], 5⟩) := by decide +kernel

example : (do
    let w ← LifeStore.run ParVecObj.cls (C97_program ++ [LifeStmt.destroy 0, .destroy 2, .destroy 1, .destroy 3]) ⟨[], []⟩
    .ok (w.mem.filter Option.isSome)) = .ok [] := by decide +kernel

/-- The hypotheses of `C97_copy` and `C97_copy_empty` on this program. -/
example : ∃ vs, ParVecVal.vals.run C97_program [] = .ok vs ∧ vs[1]? = some (some (.full 7 ⟨[1, 8], [0, 2, 5], 5⟩)) ∧ vs[2]? = some (some (.void true)) :=
  ⟨_, rfl, rfl, rfl⟩

example : ∃ x, ParVecObj.make [] (.vect 7 [1, 2] [0, 2, 5]) = .ok x ∧ ((x.2.grow x.1 3).toOption.map (fun y => (y.2.seen y.1, y.2.own y.1))) =
    some (.error .undefinedBehaviour, .ok (7, ⟨[1, 2, 0], [0, 2, 5], 5⟩)) := ⟨_, rfl, by decide +kernel⟩

/-! ## C98 -/

/-- **C98.**  Any program of constructions, copies, moves, assignments, swaps, scalings and destructions of distributed matrices does what
it does on values.  Each matrix has its own blocks, and hypre sees just these in `A_`; products with the arrays of a caller use them, where
the matrix has vectors for that.  Nothing is used or given back after it was given back, and once every matrix is destroyed nothing is left
allocated. -/
theorem C98_values_partial [Mul α] (r : Csr α → Csr α) (ops : List (LifeStmt (ParMatObj.Args α) α)) :
    (ParMatObj.cls r).Follows (ParMatVal.vals r) ParMatObj.Shows ops :=
  (ParMatObj.lawful r).run_shows ParMatObj.Stands.shows ops

/-- **C98.**  After any program, a copy of a matrix has the same entries, up to the order hypre puts them in.  A product of the copy with
the arrays of a caller uses them if the communicator is a positive number, as the predefined ones are; otherwise it follows a null pointer. -/
theorem C98_copy [Mul α] (r : Csr α → Csr α) (ops : List (LifeStmt (ParMatObj.Args α) α)) {vs : List (Option (ParMatVal α))}
    (h : (ParMatVal.vals r).run ops [] = .ok vs) {i : Nat} {comm rank : Int} {views : Bool} {M : ParMat α} (hi : vs[i]? = some (some (.full comm rank views M))) :
    ∃ w o, LifeStore.run (ParMatObj.cls r) (ops ++ [.copy i]) ⟨[], []⟩ = .ok w ∧ w.objs[vs.length]? = some (some o) ∧
      o.seen w.mem = .ok (comm, { M with diag := { M.diag with indices := (r M.diag).indices, data := (r M.diag).data } }) ∧
      (comm > 0 → rank ≥ 0 → ∃ m', o.mult w.mem = .ok (m', { M with diag := { M.diag with indices := (r M.diag).indices, data := (r M.diag).data } })) ∧
      (comm < 0 → o.mult w.mem = .error .undefinedBehaviour) := by
  have k := C98_values_partial r (ops ++ [.copy i])
  have e : (ParMatVal.vals r).run (ops ++ [.copy i]) [] =
      .ok (vs ++ [some (.full comm rank (comm > 0 ∧ rank ≥ 0) { M with diag := ParMatVal.inPlace r M.diag })]) := by
    rw [LifeVals.run_append _ _ _ h]
    simp only [LifeVals.step, LifeVals.get_ok hi, ok_bind]
    rfl
  rw [Cls.Follows, e] at k
  obtain ⟨w, h1, ⟨hl, h2⟩, -⟩ := k
  have h3 := h2 vs.length
  simp only [List.getElem?_concat_length, Option.join_some] at h3
  cases ho : w.objs[vs.length]?.join with
  | none => rw [ho] at h3; exact h3.elim
  | some o =>
    rw [ho] at h3
    have ho' : w.objs[vs.length]? = some (some o) := by
      cases hx : w.objs[vs.length]? with
      | none => rw [hx] at ho; cases ho
      | some y => rw [hx] at ho; simp at ho; rw [ho]
    obtain ⟨-, -, h4, h5⟩ := h3
    refine ⟨w, o, h1, ho', h4, ?_, ?_⟩
    · intro hc hk
      rw [if_pos (by simp [hc, hk])] at h5
      exact h5
    · intro hc
      rw [if_neg (by simp; omega)] at h5
      exact h5

/-- A 2 x 2 matrix spread over two processes, a copy, a scaling, a move and an assignment; `comm` is the communicator. -/
def C98_program (comm : Int) : List (LifeStmt (ParMatObj.Args Int) Int) :=
  [.make (.all comm 0 [0, 1, 2] [0, 1, 2] ⟨1, 1, [0, 1], [0], [5]⟩ ⟨1, 1, [0, 1], [0], [6]⟩ [1]), .copy 0, .update 1 10, .move 0, .assign 0 1]

def C98_value (comm : Int) (k : Nat) : Res (Int × ParMat Int) := do
  let w ← LifeStore.run (ParMatObj.cls id) (C98_program comm) ⟨[], []⟩
  let o ← w.obj k
  o.seen w.mem

example : C98_value 3 0 = .ok (3, ⟨1, 1, [0, 1, 2], [0, 1, 2], ⟨1, 1, [0, 1], [0], [50]⟩, ⟨1, 1, [0, 1], [0], [60]⟩, [1]⟩) := by decide +kernel

example : C98_value 3 2 = .ok (3, ⟨1, 1, [0, 1, 2], [0, 1, 2], ⟨1, 1, [0, 1], [0], [5]⟩, ⟨1, 1, [0, 1], [0], [6]⟩, [1]⟩) := by decide +kernel

example : ∃ vs, (ParMatVal.vals id).run (C98_program 3) [] = .ok vs ∧
    vs[2]? = some (some (.full 3 0 true ⟨1, 1, [0, 1, 2], [0, 1, 2], ⟨1, 1, [0, 1], [0], [5]⟩, ⟨1, 1, [0, 1], [0], [6]⟩, [1]⟩)) := ⟨_, rfl, rfl⟩

example : (do
    let w ← LifeStore.run (ParMatObj.cls id) (C98_program 3 ++ [LifeStmt.destroy 1, .destroy 0, .destroy 2]) ⟨[], []⟩
    .ok (w.mem.filter Option.isSome)) = .ok [] := by decide +kernel

/-- **C98, negation.**  On a communicator that is a negative number, as those that MPICH derives are, a matrix can multiply and its copy cannot. -/
theorem C98_copy_negative : (do
    let w ← LifeStore.run (ParMatObj.cls id) (C98_program (-7)) ⟨[], []⟩
    let o ← w.obj 2
    let x ← o.mult w.mem
    .ok x.2) = .ok ⟨1, 1, [0, 1, 2], [0, 1, 2], ⟨1, 1, [0, 1], [0], [5]⟩, ⟨1, 1, [0, 1], [0], [6]⟩, [1]⟩ ∧
    (do
    let w ← LifeStore.run (ParMatObj.cls id) (C98_program (-7)) ⟨[], []⟩
    let o ← w.obj 1
    let x ← o.mult w.mem
    .ok x.2) = (.error .undefinedBehaviour : Res (ParMat Int)) := by decide +kernel

end Linalg
