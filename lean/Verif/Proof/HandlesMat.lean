import Verif.Proof.Handles

/-!
# The cells of a ParMatrix
-/

namespace Linalg
open Cpp

variable {C : Type} {α : Type}

namespace Mem
variable {m m1 : Mem C}

/-- Cells at consecutive addresses. -/
def place : Nat → List C → List (Nat × C)
  | _, [] => []
  | n, c :: cs => (n, c) :: place (n + 1) cs

theorem place_keys (n : Nat) (cs : List C) : (place n cs).map Prod.fst = List.range' n cs.length := by
  induction cs generalizing n with
  | nil => rfl
  | cons c cs ih => simp [place, ih, List.range'_succ]

theorem place_append (n : Nat) (cs ds : List C) : place n (cs ++ ds) = place n cs ++ place (n + cs.length) ds := by
  induction cs generalizing n with
  | nil => simp [place]
  | cons c cs ih => simp [place, ih]; congr 1; omega

theorem has_place (m : Mem C) (cs : List C) : (m ++ cs.map some).Has (place m.length cs) := by
  induction cs generalizing m with
  | nil => intro p hp; cases hp
  | cons c cs ih =>
    rw [place, has_cons]
    refine ⟨by simp, ?_⟩
    have := ih (m ++ [some c])
    simpa using this

theorem owns_place (m : Mem C) (cs : List C) : (m ++ cs.map some).Owns (place m.length cs) (List.range' m.length cs.length) :=
  ⟨has_place m cs, (place_keys _ _).symm, List.nodup_range'⟩

theorem grown_place (m : Mem C) (cs : List C) : m.Grown (m ++ cs.map some) (List.range' m.length cs.length) :=
  grown_append m cs _ (by intro k; simp [List.mem_range'_1])

theorem Has.rest {fp fq : List (Nat × C)} (h : m.Has (fp ++ fq)) (hn : ((fp ++ fq).map Prod.fst).Nodup) (hf : m.Freed m1 (fp.map Prod.fst)) :
    m1.Has fq ∧ (fq.map Prod.fst).Nodup := by
  rw [List.map_append, List.nodup_append] at hn
  refine ⟨(has_append.mp h).2.freed hf ?_, hn.2.1⟩
  intro k hk hk'
  exact hn.2.2 k hk' k hk rfl

end Mem

namespace ParOpObj
open Hypre

variable {m : Mem (HCell α)}

/-- The cells of one of the two vectors. -/
def vecCells (comm size : Int) (starts h l : Nat) : List (Nat × HCell α) :=
  [(l, .loc .outside false), (h, .pvec comm size (.to starts) (.to l) true false)]

theorem initVector_eq (m : Mem (HCell α)) (comm : Int) (starts : Nat) (l : List Int) (hm : m[starts]? = some (some (.ints l))) (hl : l.length ≥ 3)
    (hc : comm ≠ 0) : initVector m comm starts =
      .ok (m ++ [some (.loc .outside false), some (.pvec comm (globalSize l) (.to starts) (.to m.length) true false)], m.length + 1) := by
  obtain ⟨a, b, c, t, rfl⟩ : ∃ a b c t, l = a :: b :: c :: t := by
    match l, hl with
    | a :: b :: c :: t, _ => exact ⟨a, b, c, t, rfl⟩
  have e1 : rd (a :: b :: c :: t) 2 = .ok c := rfl
  simp [initVector, ints, deref, hm, cassert, e1, vecCreate, hc, Mem.alloc, setPartOwner, Mem.get, setDataOwner, setSeqOwner, localVec,
    setData, vecInit, Mem.put, bind, Except.bind, globalSize]

theorem initVector_bad (m : Mem (HCell α)) (comm : Int) (starts : Nat) (l : List Int) (hm : m[starts]? = some (some (.ints l))) (hl : l.length ≥ 3)
    (hc : comm = 0) : initVector m comm starts = .error .undefinedBehaviour := by
  have e1 : ∃ c, rd l 2 = .ok c := ⟨l[2], by simp [rd, List.getElem?_eq_getElem (show 2 < l.length by omega)]⟩
  obtain ⟨c, e1⟩ := e1
  simp [initVector, ints, deref, Mem.get_ok hm, cassert, hl, e1, vecCreate, hc, bind, Except.bind]

/-- The cells of the base: the starts, and the two vectors if there are any. -/
def cells (o : ParOpObj) (rs cs : List Int) (v : Option (Nat × Nat × Nat × Nat)) : List (Nat × HCell α) :=
  [(o.rowStarts, .ints rs), (o.colStarts, .ints cs)] ++ match v with
  | none => []
  | some (hx, lx, hb, lb) => vecCells o.comm (globalSize rs) o.rowStarts hx lx ++ vecCells o.comm (globalSize cs) o.colStarts hb lb

/-- The two pointers. -/
def Ptrs (o : ParOpObj) : Option (Nat × Nat × Nat × Nat) → Prop
  | none => o.x = .null ∧ o.b = .null
  | some (hx, _, hb, _) => o.x = .to hx ∧ o.b = .to hb

theorem create_eq (m : Mem (HCell α)) (o : ParOpObj) (rs cs : List Int) (hr : rs.length ≥ 3) (hc : cs.length ≥ 3) (h0 : o.comm ≠ 0)
    (e1 : m[o.rowStarts]? = some (some (.ints rs))) (e2 : m[o.colStarts]? = some (some (.ints cs))) :
    hypreCreate m o = .ok (m ++ [some (.loc .outside false), some (.pvec o.comm (globalSize rs) (.to o.rowStarts) (.to m.length) true false),
      some (.loc .outside false), some (.pvec o.comm (globalSize cs) (.to o.colStarts) (.to (m.length + 2)) true false)],
      { o with x := .to (m.length + 1), b := .to (m.length + 3) }) := by
  have l2 := (List.getElem?_eq_some_iff.mp e2).1
  unfold hypreCreate
  rw [initVector_eq m _ _ rs e1 hr h0, ok_bind]
  dsimp only
  rw [initVector_eq _ _ _ cs (by rw [List.getElem?_append_left l2]; exact e2) hc h0, ok_bind]
  simp

theorem create_bad (m : Mem (HCell α)) (o : ParOpObj) (rs : List Int) (hr : rs.length ≥ 3) (h0 : o.comm = 0)
    (e1 : m[o.rowStarts]? = some (some (.ints rs))) : hypreCreate m o = .error .undefinedBehaviour := by
  unfold hypreCreate
  rw [initVector_bad m _ _ rs e1 hr h0]
  rfl

/-- New starts with the two vectors. -/
theorem new_views (m : Mem (HCell α)) (o : ParOpObj) (rs cs : List Int) (hr : rs.length ≥ 3) (hc : cs.length ≥ 3) (h0 : o.comm ≠ 0)
    (e1 : o.rowStarts = m.length) (e2 : o.colStarts = m.length + 1) :
    ∃ (ds : List (HCell α)) (o' : ParOpObj) (v : Nat × Nat × Nat × Nat), hypreCreate (m ++ [some (.ints rs), some (.ints cs)]) o = .ok (m ++ ds.map some, o') ∧
      cells o' rs cs (some v) = Mem.place m.length ds ∧ Ptrs o' (some v) ∧ o'.rows = o.rows ∧ o'.cols = o.cols ∧ o'.comm = o.comm ∧ o'.myid = o.myid := by
  rw [create_eq _ o rs cs hr hc h0 (by rw [e1]; simp) (by rw [e2]; simp)]
  refine ⟨[.ints rs, .ints cs, .loc .outside false, .pvec o.comm (globalSize rs) (.to o.rowStarts) (.to (m.length + 2)) true false,
      .loc .outside false, .pvec o.comm (globalSize cs) (.to o.colStarts) (.to (m.length + 4)) true false],
      { o with x := .to (m.length + 3), b := .to (m.length + 5) }, (m.length + 3, m.length + 2, m.length + 5, m.length + 4), ?_, ?_, ?_, rfl, rfl, rfl, rfl⟩
  · simp
  · simp [cells, vecCells, Mem.place, e1, e2]
  · simp [Ptrs]

theorem destroy_ok {o : ParOpObj} {rs cs : List Int} {v : Option (Nat × Nat × Nat × Nat)} (h : m.Has (o.cells rs cs v)) (hp : o.Ptrs v)
    (hn : ((o.cells (α := α) rs cs v).map Prod.fst).Nodup) :
    ∃ m', destroy m o = .ok m' ∧ m.Freed m' ((o.cells (α := α) rs cs v).map Prod.fst) := by
  -- the vectors, then the starts
  have fin : ∀ (m1 : Mem (HCell α)) (t : List Nat), m.Freed m1 t → o.rowStarts ∉ t → o.colStarts ∉ t → o.rowStarts ≠ o.colStarts →
      ∃ m', (do let m ← m1.free o.colStarts; m.free o.rowStarts) = .ok m' ∧ m.Freed m' (t ++ [o.colStarts] ++ [o.rowStarts]) := by
    intro m1 t hf h1 h2 h3
    have a1 : m1[o.rowStarts]? = some (some (.ints rs)) := by
      rw [hf.rest _ h1]; exact h (o.rowStarts, .ints rs) (by simp [cells])
    have a2 : m1[o.colStarts]? = some (some (.ints cs)) := by
      rw [hf.rest _ h2]; exact h (o.colStarts, .ints cs) (by simp [cells])
    have a3 : (m1.set o.colStarts none)[o.rowStarts]? = some (some (.ints rs)) := by rw [List.getElem?_set_ne (Ne.symm h3)]; exact a1
    refine ⟨_, by rw [Mem.free_ok a2, ok_bind, Mem.free_ok a3], ?_⟩
    exact (hf.trans (Mem.freed_one (List.getElem?_eq_some_iff.mp a2).1)).trans (Mem.freed_one (List.getElem?_eq_some_iff.mp a3).1)
  cases v with
  | none =>
    obtain ⟨p1, p2⟩ := hp
    simp [cells] at hn
    obtain ⟨m', e, hf⟩ := fin m [] (Mem.Freed.refl m) (by simp) (by simp) hn
    refine ⟨m', ?_, hf.congr ?_⟩
    · unfold destroy
      rw [p1, p2]
      simpa [destroyVector, ok_bind] using e
    · intro k; simp [cells]; tauto
  | some v =>
    obtain ⟨hx, lx, hb, lb⟩ := v
    obtain ⟨p1, p2⟩ := hp
    simp only [cells, vecCells, List.cons_append, List.nil_append, Mem.has_cons] at h
    obtain ⟨-, -, b1, b2, b3, b4, -⟩ := h
    simp [cells, vecCells] at hn
    obtain ⟨m1, e1, f1⟩ := vecDestroy_ok b2 b1 (by tauto)
    obtain ⟨m2, e2, f2⟩ := vecDestroy_ok (m := m1) (h := hb) (l := lb) (by rw [f1.rest _ (by simp; tauto)]; exact b4) (by rw [f1.rest _ (by simp; tauto)]; exact b3)
      (by tauto)
    obtain ⟨m', e, hf⟩ := fin m2 _ (f1.trans f2) (by simp; tauto) (by simp; tauto) (by tauto)
    refine ⟨m', ?_, hf.congr ?_⟩
    · unfold destroy
      rw [p1, p2]
      simp only [destroyVector, e1, e2, ok_bind]
      exact e
    · intro k; simp [cells, vecCells]; tauto

theorem make_ok (m : Mem (HCell α)) (comm rank : Int) (rs cs : List Int) (n : Int × Int) (h : ParMatVal.startsOk rs cs = .ok n) (hc : comm ≠ 0) :
    ∃ (ds : List (HCell α)) (o : ParOpObj) (v : Nat × Nat × Nat × Nat), make m comm rank rs cs = .ok (m ++ ds.map some, o) ∧
      cells o rs cs (some v) = Mem.place m.length ds ∧ Ptrs o (some v) ∧ o.rows = n.1 ∧ o.cols = n.2 ∧ o.comm = comm ∧ o.myid = rank := by
  unfold ParMatVal.startsOk at h
  obtain ⟨r1, e1, h⟩ := bind_eq_ok.mp h
  obtain ⟨r0, e0, h⟩ := bind_eq_ok.mp h
  obtain ⟨c1, f1, h⟩ := bind_eq_ok.mp h
  obtain ⟨c0, f0, h⟩ := bind_eq_ok.mp h
  obtain ⟨u1, g1, h⟩ := bind_eq_ok.mp h
  obtain ⟨u2, g2, h⟩ := bind_eq_ok.mp h
  obtain ⟨u3, g3, h⟩ := bind_eq_ok.mp h
  obtain ⟨u4, g4, h⟩ := bind_eq_ok.mp h
  cases h
  have l3 := cassert_ok_iff.mp g3
  have l4 := cassert_ok_iff.mp g4
  have := new_views m ⟨r1 - r0, c1 - c0, comm, rank, m.length, m.length + 1, .null, .null⟩ rs cs l3 l4 hc rfl rfl
  simp only [make, e1, e0, f1, f0, g1, g2, g3, g4, ok_bind, Mem.alloc]
  simpa using this

theorem make_bad (m : Mem (HCell α)) (comm rank : Int) (rs cs : List Int) (n : Int × Int) (h : ParMatVal.startsOk rs cs = .ok n) (hc : comm = 0) :
    make m comm rank rs cs = .error .undefinedBehaviour := by
  unfold ParMatVal.startsOk at h
  obtain ⟨r1, e1, h⟩ := bind_eq_ok.mp h
  obtain ⟨r0, e0, h⟩ := bind_eq_ok.mp h
  obtain ⟨c1, f1, h⟩ := bind_eq_ok.mp h
  obtain ⟨c0, f0, h⟩ := bind_eq_ok.mp h
  obtain ⟨u1, g1, h⟩ := bind_eq_ok.mp h
  obtain ⟨u2, g2, h⟩ := bind_eq_ok.mp h
  obtain ⟨u3, g3, h⟩ := bind_eq_ok.mp h
  obtain ⟨u4, g4, h⟩ := bind_eq_ok.mp h
  have l3 := cassert_ok_iff.mp g3
  simp only [make, e1, e0, f1, f0, g1, g2, g3, g4, ok_bind, Mem.alloc]
  exact create_bad ((m ++ [some (.ints rs)]) ++ [some (.ints cs)]) ⟨r1 - r0, c1 - c0, comm, rank, m.length, (m ++ [some (HCell.ints rs)]).length, .null, .null⟩ rs l3 hc (by simp)

theorem make_error (m : Mem (HCell α)) (comm rank : Int) (rs cs : List Int) (e : Err) (h : ParMatVal.startsOk rs cs = .error e) :
    make m comm rank rs cs = .error e := by
  unfold ParMatVal.startsOk at h
  unfold make
  cases h1 : rd rs 1 with
  | error e => simp only [h1, bind, Except.bind] at h ⊢; cases h; rfl
  | ok r1 =>
  cases h2 : rd rs 0 with
  | error e => simp only [h1, h2, bind, Except.bind] at h ⊢; cases h; rfl
  | ok r0 =>
  cases h3 : rd cs 1 with
  | error e => simp only [h1, h2, h3, bind, Except.bind] at h ⊢; cases h; rfl
  | ok c1 =>
  cases h4 : rd cs 0 with
  | error e => simp only [h1, h2, h3, h4, bind, Except.bind] at h ⊢; cases h; rfl
  | ok c0 =>
  cases h5 : cassert (r1 - r0 ≥ 0) with
  | error e => simp only [h1, h2, h3, h4, h5, bind, Except.bind] at h ⊢; cases h; rfl
  | ok u =>
  cases h6 : cassert (c1 - c0 ≥ 0) with
  | error e => simp only [h1, h2, h3, h4, h5, h6, bind, Except.bind] at h ⊢; cases h; rfl
  | ok u =>
  cases h7 : cassert (rs.length ≥ 3) with
  | error e => simp only [h1, h2, h3, h4, h5, h6, h7, bind, Except.bind] at h ⊢; cases h; rfl
  | ok u =>
  cases h8 : cassert (cs.length ≥ 3) with
  | error e => simp only [h1, h2, h3, h4, h5, h6, h7, h8, bind, Except.bind] at h ⊢; cases h; rfl
  | ok u => simp only [h1, h2, h3, h4, h5, h6, h7, h8, bind, Except.bind] at h; cases h

/-- New starts without vectors. -/
theorem new_plain (m : Mem (HCell α)) (o : ParOpObj) (rs cs : List Int) (e1 : o.rowStarts = m.length) (e2 : o.colStarts = m.length + 1) :
    cells o rs cs none = Mem.place m.length [(HCell.ints rs : HCell α), .ints cs] := by
  simp [cells, Mem.place, e1, e2]

/-- A copy of starts long enough. -/
theorem copy_ok {o : ParOpObj} {rs cs : List Int} (hr : rs.length ≥ 3) (hc : cs.length ≥ 3) (h1 : m[o.rowStarts]? = some (some (.ints rs)))
    (h2 : m[o.colStarts]? = some (some (.ints cs))) (hn : o.rows ≥ 0) (hm : o.cols ≥ 0) :
    ∃ (ds : List (HCell α)) (o' : ParOpObj) (v : Option (Nat × Nat × Nat × Nat)), copy m o = .ok (m ++ ds.map some, o') ∧
      cells o' rs cs v = Mem.place m.length ds ∧ Ptrs o' v ∧ o'.rows = o.rows ∧ o'.cols = o.cols ∧ o'.comm = o.comm ∧ o'.myid = o.myid ∧
      v.isSome = decide (o.comm > 0 ∧ o.myid ≥ 0) := by
  have l2 := (List.getElem?_eq_some_iff.mp h2).1
  have h2' : (m ++ [some (.ints rs)])[o.colStarts]? = some (some (.ints cs)) := by rw [List.getElem?_append_left l2]; exact h2
  have e : copy m o = if o.comm > 0 ∧ o.myid ≥ 0 then
      hypreCreate (m ++ [some (.ints rs), some (.ints cs)]) ⟨o.rows, o.cols, o.comm, o.myid, m.length, m.length + 1, .null, .null⟩
      else .ok (m ++ [some (.ints rs), some (.ints cs)], ⟨o.rows, o.cols, o.comm, o.myid, m.length, m.length + 1, .null, .null⟩) := by
    simp [copy, cassert, hn, hm, ok_bind, ints, deref, Mem.get_ok h1, Mem.get_ok h2', Mem.alloc]
  rw [e]
  by_cases hv : o.comm > 0 ∧ o.myid ≥ 0
  · rw [if_pos hv]
    obtain ⟨ds, o', v, a, b, c, d1, d2, d3, d4⟩ := new_views m ⟨o.rows, o.cols, o.comm, o.myid, m.length, m.length + 1, .null, .null⟩ rs cs hr hc
      (by show o.comm ≠ 0; omega) rfl rfl
    exact ⟨ds, o', some v, a, b, c, d1, d2, d3, d4, by simp [hv]⟩
  · rw [if_neg hv]
    exact ⟨[.ints rs, .ints cs], ⟨o.rows, o.cols, o.comm, o.myid, m.length, m.length + 1, .null, .null⟩, none, by simp, new_plain m _ rs cs rfl rfl, ⟨rfl, rfl⟩, rfl, rfl, rfl, rfl, by simp [hv]⟩

end ParOpObj

namespace CsrObj
open Hypre
variable {m : Mem (HCell α)}

/-- The cells of a sparse matrix. -/
def cells (o : CsrObj) (A : Csr α) : List (Nat × HCell α) := [(o.indptr, .ints A.indptr), (o.indices, .ints A.indices), (o.data, .reals A.data)]

theorem new_eq (m : Mem (HCell α)) (A : Csr α) : new m A =
    (m ++ [some (.ints A.indptr), some (.ints A.indices), some (.reals A.data)], ⟨A.rows, A.cols, m.length, m.length + 1, m.length + 2⟩) := by
  simp [new, Mem.alloc]

theorem copy_eq {o : CsrObj} {A : Csr α} (h : m.Has (o.cells A)) (hr : o.rows = A.rows) (hc : o.cols = A.cols) : copy m o = .ok (new m A) := by
  simp only [cells, Mem.has_cons] at h
  obtain ⟨b1, b2, b3, -⟩ := h
  simp only [copy, val, ints, reals, deref, ok_bind, Mem.get_ok b1, Mem.get_ok b2, Mem.get_ok b3, hr, hc]

theorem destroy_ok {o : CsrObj} {A : Csr α} (h : m.Has (o.cells A)) (hn : ((o.cells A).map Prod.fst).Nodup) :
    ∃ m', destroy m o = .ok m' ∧ m.Freed m' ((o.cells A).map Prod.fst) := by
  simp only [cells, Mem.has_cons] at h
  obtain ⟨b1, b2, b3, -⟩ := h
  simp [cells] at hn
  have c2 : (m.set o.data none)[o.indices]? = some (some (.ints A.indices)) := by rw [List.getElem?_set_ne (by tauto)]; exact b2
  have c1 : ((m.set o.data none).set o.indices none)[o.indptr]? = some (some (.ints A.indptr)) := by
    rw [List.getElem?_set_ne (by tauto), List.getElem?_set_ne (by tauto)]; exact b1
  refine ⟨((m.set o.data none).set o.indices none).set o.indptr none, by simp only [destroy, Mem.free_ok b3, ok_bind, Mem.free_ok c2, Mem.free_ok c1], ?_⟩
  refine (((Mem.freed_one (List.getElem?_eq_some_iff.mp b3).1).trans (Mem.freed_one (List.getElem?_eq_some_iff.mp c2).1)).trans
    (Mem.freed_one (List.getElem?_eq_some_iff.mp c1).1)).congr ?_
  intro k; simp [cells]; tauto

end CsrObj

namespace ParMatObj
open Hypre List
variable {m : Mem (HCell α)}

/-- The cells of the hypre matrix. -/
def hypCells (o : ParMatObj) (M : ParMat α) (d f A n p : Nat) : List (Nat × HCell α) :=
  [(d, .csr M.diag.rows M.diag.cols (.to o.diag.indptr) (.to o.diag.indices) (.to o.diag.data) .null false),
   (f, .csr M.offd.rows M.offd.cols (.to o.offd.indptr) (.to o.offd.indices) (.to o.offd.data) (.to n) false),
   (A, .pmat o.op.comm (ParOpObj.globalSize M.rowStarts) (ParOpObj.globalSize M.colStarts) (.to o.op.rowStarts) (.to o.op.colStarts) (.to d) (.to f)
     (.to o.colMap) (.to p) false false false),
   (n, .rownnz), (p, .pkg)]

/-- The cells of the members. -/
def ownCells (o : ParMatObj) (M : ParMat α) (v : Option (Nat × Nat × Nat × Nat)) : List (Nat × HCell α) :=
  o.op.cells M.rowStarts M.colStarts v ++ (o.diag.cells M.diag ++ (o.offd.cells M.offd ++ [(o.colMap, .ints M.colMap)]))

/-- The sizes of the members. -/
structure Sized (o : ParMatObj) (M : ParMat α) : Prop where
  rows : o.op.rows = M.rows
  cols : o.op.cols = M.cols
  drows : o.diag.rows = M.diag.rows
  dcols : o.diag.cols = M.diag.cols
  frows : o.offd.rows = M.offd.rows
  fcols : o.offd.cols = M.offd.cols

/-- A matrix that has passed the checks. -/
structure Fits (M : ParMat α) : Prop where
  rlen : M.rowStarts.length = 3
  clen : M.colStarts.length = 3
  rows : M.rows = M.rowStarts.getD 1 0 - M.rowStarts.getD 0 0
  cols : M.cols = M.colStarts.getD 1 0 - M.colStarts.getD 0 0
  drows : M.diag.rows = M.rows
  dcols : M.diag.cols = M.cols
  frows : M.offd.rows = M.rows
  rnn : 0 ≤ M.rows
  cnn : 0 ≤ M.cols

/-- A `ParMatrix` stands for a value. -/
def Stands (m : Mem (HCell α)) (o : ParMatObj) (v : ParMatVal α) (s : List Nat) : Prop :=
  match v with
  | .full comm rank views M => o.op.comm = comm ∧ o.op.myid = rank ∧ comm ≠ 0 ∧ Fits M ∧ Sized o M ∧
      ∃ (d f A n p : Nat) (w : Option (Nat × Nat × Nat × Nat)), o.A = .to A ∧ o.op.Ptrs w ∧ w.isSome = views ∧
        m.Owns (o.ownCells M w ++ o.hypCells M d f A n p) s
  | .void => o.op.comm = 0 ∧ o.op.myid = -1 ∧ o.A = .null ∧ o.op.Ptrs none ∧ Sized o (⟨0, 0, [], [], Csr.empty, Csr.empty, []⟩ : ParMat α) ∧
      m.Owns (o.ownCells ⟨0, 0, [], [], Csr.empty, Csr.empty, []⟩ none) s

theorem starts_three {l : List Int} (h : l.length = 3) : ∃ a b c, l = [a, b, c] := by
  match l, h with
  | [a, b, c], _ => exact ⟨a, b, c, rfl⟩

/-- `HypreCreate` on members that were allocated last. -/
theorem hypreCreate_eq (r : Csr α → Csr α) (m : Mem (HCell α)) (p : ParOpObj) (M : ParMat α) (hM : Fits M) (hc : p.comm ≠ 0)
    (h1 : m[p.rowStarts]? = some (some (.ints M.rowStarts))) (h2 : m[p.colStarts]? = some (some (.ints M.colStarts))) :
    hypreCreate r (m ++ [some (.ints M.diag.indptr), some (.ints M.diag.indices), some (.reals M.diag.data),
        some (.ints M.offd.indptr), some (.ints M.offd.indices), some (.reals M.offd.data), some (.ints M.colMap)])
      ⟨p, .null, ⟨M.diag.rows, M.diag.cols, m.length, m.length + 1, m.length + 2⟩, ⟨M.offd.rows, M.offd.cols, m.length + 3, m.length + 4, m.length + 5⟩,
        m.length + 6⟩ =
    .ok (m ++ [some (.ints M.diag.indptr), some (.ints (r M.diag).indices), some (.reals (r M.diag).data),
        some (.ints M.offd.indptr), some (.ints M.offd.indices), some (.reals M.offd.data), some (.ints M.colMap),
        some (.csr M.diag.rows M.diag.cols (.to m.length) (.to (m.length + 1)) (.to (m.length + 2)) .null false),
        some (.csr M.offd.rows M.offd.cols (.to (m.length + 3)) (.to (m.length + 4)) (.to (m.length + 5)) (.to (m.length + 10)) false),
        some (.pmat p.comm (ParOpObj.globalSize M.rowStarts) (ParOpObj.globalSize M.colStarts) (.to p.rowStarts) (.to p.colStarts) (.to (m.length + 7))
          (.to (m.length + 8)) (.to (m.length + 6)) (.to (m.length + 11)) false false false),
        some .rownnz, some .pkg],
      ⟨p, .to (m.length + 9), ⟨M.diag.rows, M.diag.cols, m.length, m.length + 1, m.length + 2⟩,
        ⟨M.offd.rows, M.offd.cols, m.length + 3, m.length + 4, m.length + 5⟩, m.length + 6⟩) := by
  obtain ⟨a0, a1, a2, ea⟩ := starts_three hM.rlen
  obtain ⟨b0, b1, b2, eb⟩ := starts_three hM.clen
  have q1 := hM.rows
  have q2 := hM.cols
  have q3 := hM.drows
  have q4 := hM.dcols
  have q5 := hM.frows
  rw [ea] at h1 q1
  rw [eb] at h2 q2
  simp at q1 q2
  have l1 := (List.getElem?_eq_some_iff.mp h1).1
  have l2 := (List.getElem?_eq_some_iff.mp h2).1
  have k1 : ∀ t : List (Option (HCell α)), (m ++ t)[p.rowStarts]? = some (some (.ints [a0, a1, a2])) := fun t => by rw [List.getElem?_append_left l1]; exact h1
  have k2 : ∀ t : List (Option (HCell α)), (m ++ t)[p.colStarts]? = some (some (.ints [b0, b1, b2])) := fun t => by rw [List.getElem?_append_left l2]; exact h2
  have e0 : rd [a0, a1, a2] 0 = .ok a0 := rfl
  have e1 : rd [a0, a1, a2] 1 = .ok a1 := rfl
  have f0 : rd [b0, b1, b2] 0 = .ok b0 := rfl
  have f1 : rd [b0, b1, b2] 1 = .ok b1 := rfl
  have hD : (⟨a1 - a0, b1 - b0, M.diag.indptr, M.diag.indices, M.diag.data⟩ : Csr α) = M.diag := by
    rw [← q1, ← q2, ← q3, ← q4]
  have q5' : M.offd.rows = a1 - a0 := by rw [q5, q1]
  have q3' : M.diag.rows = a1 - a0 := by rw [q3, q1]
  have q4' : M.diag.cols = b1 - b0 := by rw [q4, q2]
  rw [ea, eb]
  simp [hypreCreate, hypreDestroy, ints, deref, Mem.get, k1, k2, matCreate, hc, e0, e1, f0, f1, Mem.alloc, setMatOwner, matBlocks, setArrays, setRownnz,
    setColMap, reorder, csrOf, reals, pkgCreate, Mem.put, bind, Except.bind, hD, q5', q3', q4']

/-- `HypreDestroy`. -/
theorem hypreDestroy_ok {o : ParMatObj} {M : ParMat α} {d f A n p : Nat} (h : m.Has (o.hypCells M d f A n p)) (hA : o.A = .to A)
    (hn : ((o.hypCells M d f A n p).map Prod.fst).Nodup) :
    ∃ m', hypreDestroy m o = .ok (m', { o with A := .null }) ∧ m.Freed m' ((o.hypCells M d f A n p).map Prod.fst) := by
  simp only [hypCells, Mem.has_cons] at h
  obtain ⟨b1, b2, b3, b4, b5, -⟩ := h
  simp [hypCells] at hn
  have l1 := (List.getElem?_eq_some_iff.mp b1).1
  have l2 := (List.getElem?_eq_some_iff.mp b2).1
  have l3 := (List.getElem?_eq_some_iff.mp b3).1
  have l4 := (List.getElem?_eq_some_iff.mp b4).1
  have l5 := (List.getElem?_eq_some_iff.mp b5).1
  have hne : ∀ {m1 : Mem (HCell α)} {i j : Nat} {c : Option (HCell α)} {e : HCell α}, m1[j]? = some (some e) → i ≠ j → (m1.set i c)[j]? = some (some e) := by
    intro m1 i j c e h1 h2
    rw [List.getElem?_set_ne h2]; exact h1
  have p1 : p ≠ d := by tauto
  have p2 : p ≠ f := by tauto
  have p3 : p ≠ A := by tauto
  have p4 : p ≠ n := by tauto
  have n1 : n ≠ d := by tauto
  have n2 : n ≠ f := by tauto
  have n3 : n ≠ A := by tauto
  have d2 : d ≠ f := by tauto
  have d3 : d ≠ A := by tauto
  have f3 : f ≠ A := by tauto
  have c3 := hne (c := none) b3 p3
  have c2 := hne (c := none) b2 p2
  have c4 := hne (c := none) b4 p4
  have c1 := hne (c := none) b1 p1
  have e2 := hne (c := none) c2 n2
  have g1 := hne (c := none) c1 n1
  have g3 := hne (c := none) c3 n3
  generalize hcell : HCell.csr (α := α) M.offd.rows M.offd.cols (.to o.offd.indptr) (.to o.offd.indices) (.to o.offd.data) .null false = cf
  have h1 := hne (c := some cf) g1 d2.symm
  have h3 := hne (c := some cf) g3 f3
  have h2 : (((m.set p none).set n none).set f (some cf))[f]? = some (some cf) := by simp [l2]
  have i2 := hne (c := none) h2 d2
  have i3 := hne (c := none) h3 d3
  have j3 := hne (c := none) i3 f3
  refine ⟨(((((m.set p none).set n none).set f (some cf)).set d none).set f none).set A none, ?_, ?_⟩
  · subst hcell
    simp only [hypreDestroy, hA, pkgDestroy, Mem.get_ok b3, deref, ok_bind, Mem.free_ok b5, matBlocks, Mem.get_ok c3, rownnzFree, Mem.get_ok c2, tfree,
      Mem.free_ok c4, Mem.put_ok e2, Mem.free_ok h1, Mem.free_ok i2, matDestroy, Mem.get_ok j3, Mem.free_ok j3, Bool.false_eq_true, if_false]
  · have z : m.Freed ((((((m.set p none).set n none).set f (some cf)).set d none).set f none).set A none) ([p] ++ [n] ++ [d] ++ [f] ++ [A]) := by
      have zz : (((((m.set p none).set n none).set f (some cf)).set d none).set f none) = ((((m.set p none).set n none).set d none).set f none) := by
        rw [List.set_comm (some cf) none d2.symm, List.set_set]
      rw [zz]
      exact ((((Mem.freed_one l5).trans (Mem.freed_one (by simpa using l4))).trans (Mem.freed_one (by simpa using l1))).trans
        (Mem.freed_one (by simpa using l2))).trans (Mem.freed_one (by simpa using l3))
    refine z.congr ?_
    intro k; simp [hypCells]; tauto

/-- The end of the members. -/
theorem destroyOwn_ok {o : ParMatObj} {M : ParMat α} {v : Option (Nat × Nat × Nat × Nat)} (h : m.Has (o.ownCells M v)) (hp : o.op.Ptrs v)
    (hn : ((o.ownCells M v).map Prod.fst).Nodup) :
    ∃ m', (do
        let m ← m.free o.colMap
        let m ← CsrObj.destroy m o.offd
        let m ← CsrObj.destroy m o.diag
        ParOpObj.destroy m o.op) = .ok m' ∧ m.Freed m' ((o.ownCells M v).map Prod.fst) := by
  have h' : m.Has ([(o.colMap, HCell.ints M.colMap)] ++ (o.offd.cells M.offd ++ (o.diag.cells M.diag ++ o.op.cells M.rowStarts M.colStarts v))) := by
    simp only [ownCells, Mem.has_append] at h ⊢
    tauto
  have hn' : (([(o.colMap, HCell.ints M.colMap)] ++ (o.offd.cells M.offd ++ (o.diag.cells M.diag ++ o.op.cells M.rowStarts M.colStarts v))).map
      Prod.fst).Nodup := by
    refine (List.Perm.nodup_iff ?_).mp hn
    refine List.Perm.map _ ?_
    unfold ownCells
    generalize o.op.cells M.rowStarts M.colStarts v = a
    generalize o.diag.cells M.diag = b
    generalize o.offd.cells M.offd = c
    generalize [(o.colMap, HCell.ints M.colMap)] = e
    calc a ++ (b ++ (c ++ e)) ~ (b ++ (c ++ e)) ++ a := List.perm_append_comm
      _ ~ ((c ++ e) ++ b) ++ a := List.perm_append_comm.append_right a
      _ ~ ((e ++ c) ++ b) ++ a := (List.perm_append_comm.append_right b).append_right a
      _ = e ++ (c ++ (b ++ a)) := by simp
  have a1 : m[o.colMap]? = some (some (.ints M.colMap)) := h' (o.colMap, .ints M.colMap) (by simp)
  have f1 : m.Freed (m.set o.colMap none) ([(o.colMap, (HCell.ints M.colMap : HCell α))].map Prod.fst) := Mem.freed_one (List.getElem?_eq_some_iff.mp a1).1
  obtain ⟨h2, n2⟩ := h'.rest hn' f1
  rw [List.map_append] at n2
  obtain ⟨m2, e2, f2⟩ := CsrObj.destroy_ok (Mem.has_append.mp h2).1 (List.nodup_append.mp n2).1
  rw [← List.map_append] at n2
  obtain ⟨h3, n3⟩ := h2.rest n2 f2
  rw [List.map_append] at n3
  obtain ⟨m3, e3, f3⟩ := CsrObj.destroy_ok (Mem.has_append.mp h3).1 (List.nodup_append.mp n3).1
  rw [← List.map_append] at n3
  obtain ⟨h4, n4⟩ := h3.rest n3 f3
  obtain ⟨m4, e4, f4⟩ := ParOpObj.destroy_ok h4 hp n4
  refine ⟨m4, by rw [Mem.free_ok a1, ok_bind, e2, ok_bind, e3, ok_bind, e4], ?_⟩
  refine (((f1.trans f2).trans f3).trans f4).congr ?_
  intro k; simp only [ownCells, List.map_append, List.mem_append]; tauto

theorem destroy_eq (m : Mem (HCell α)) (o : ParMatObj) : destroy m o = (do
    let x ← hypreDestroy m o
    let m ← x.1.free x.2.colMap
    let m ← CsrObj.destroy m x.2.offd
    let m ← CsrObj.destroy m x.2.diag
    ParOpObj.destroy m x.2.op) := rfl

/-- What was put together last stands for the matrix. -/
theorem stands_new (r : Csr α → Csr α) (m : Mem (HCell α)) (ds : List (HCell α)) (p : ParOpObj) (w : Option (Nat × Nat × Nat × Nat)) (M : ParMat α)
    (hM : Fits M) (hc : p.comm ≠ 0) (hp : p.cells M.rowStarts M.colStarts w = Mem.place m.length ds) (hw : p.Ptrs w) (hr : p.rows = M.rows)
    (hk : p.cols = M.cols) :
    ∃ (m' : Mem (HCell α)) (o' : ParMatObj) (s : List Nat),
      hypreCreate r ((m ++ ds.map some) ++ [some (.ints M.diag.indptr), some (.ints M.diag.indices), some (.reals M.diag.data),
        some (.ints M.offd.indptr), some (.ints M.offd.indices), some (.reals M.offd.data), some (.ints M.colMap)])
      ⟨p, .null, ⟨M.diag.rows, M.diag.cols, (m ++ ds.map some).length, (m ++ ds.map some).length + 1, (m ++ ds.map some).length + 2⟩,
        ⟨M.offd.rows, M.offd.cols, (m ++ ds.map some).length + 3, (m ++ ds.map some).length + 4, (m ++ ds.map some).length + 5⟩,
        (m ++ ds.map some).length + 6⟩ = .ok (m', o') ∧ m.Grown m' s ∧
      Stands m' o' (.full p.comm p.myid w.isSome { M with diag := ParMatVal.inPlace r M.diag }) s := by
  have hhas := Mem.has_place m ds
  rw [← hp] at hhas
  have h1 : (m ++ ds.map some)[p.rowStarts]? = some (some (.ints M.rowStarts)) := hhas (p.rowStarts, .ints M.rowStarts) (by simp [ParOpObj.cells])
  have h2 : (m ++ ds.map some)[p.colStarts]? = some (some (.ints M.colStarts)) := hhas (p.colStarts, .ints M.colStarts) (by simp [ParOpObj.cells])
  rw [hypreCreate_eq r (m ++ ds.map some) p M hM hc h1 h2]
  have hl : List.length (m ++ ds.map some) = m.length + ds.length := by simp
  rw [hl]
  generalize hN : m.length + ds.length = N
  let es : List (HCell α) := [.ints M.diag.indptr, .ints (r M.diag).indices, .reals (r M.diag).data,
        .ints M.offd.indptr, .ints M.offd.indices, .reals M.offd.data, .ints M.colMap,
        .csr M.diag.rows M.diag.cols (.to N) (.to (N + 1)) (.to (N + 2)) .null false,
        .csr M.offd.rows M.offd.cols (.to (N + 3)) (.to (N + 4)) (.to (N + 5)) (.to (N + 10)) false,
        .pmat p.comm (ParOpObj.globalSize M.rowStarts) (ParOpObj.globalSize M.colStarts) (.to p.rowStarts) (.to p.colStarts) (.to (N + 7))
          (.to (N + 8)) (.to (N + 6)) (.to (N + 11)) false false false,
        .rownnz, .pkg]
  refine ⟨m ++ (ds ++ es).map some, ⟨p, .to (N + 9), ⟨M.diag.rows, M.diag.cols, N, N + 1, N + 2⟩, ⟨M.offd.rows, M.offd.cols, N + 3, N + 4, N + 5⟩, N + 6⟩,
    List.range' m.length (ds ++ es).length, ?_, Mem.grown_place m (ds ++ es), rfl, rfl, hc, ?_, ?_, N + 7, N + 8, N + 9, N + 10, N + 11, w, rfl, hw, rfl, ?_⟩
  · simp [es]
  · exact ⟨hM.rlen, hM.clen, hM.rows, hM.cols, hM.drows, hM.dcols, hM.frows, hM.rnn, hM.cnn⟩
  · exact ⟨hr, hk, rfl, rfl, rfl, rfl⟩
  · have e : (ownCells ⟨p, .to (N + 9), ⟨M.diag.rows, M.diag.cols, N, N + 1, N + 2⟩, ⟨M.offd.rows, M.offd.cols, N + 3, N + 4, N + 5⟩, N + 6⟩
          { M with diag := ParMatVal.inPlace r M.diag } w ++
        hypCells ⟨p, .to (N + 9), ⟨M.diag.rows, M.diag.cols, N, N + 1, N + 2⟩, ⟨M.offd.rows, M.offd.cols, N + 3, N + 4, N + 5⟩, N + 6⟩
          { M with diag := ParMatVal.inPlace r M.diag } (N + 7) (N + 8) (N + 9) (N + 10) (N + 11)) = Mem.place m.length (ds ++ es) := by
      rw [Mem.place_append, ← hp, hN]
      simp [ownCells, hypCells, CsrObj.cells, es, Mem.place, ParMatVal.inPlace]
    rw [e]
    exact Mem.owns_place m (ds ++ es)

theorem init_inPlace (r : Csr α → Csr α) (M : ParMat α) :
    ParMat.init r M = (do let N ← ParMat.init (fun A => A) M; .ok { N with diag := r N.diag }) := by
  by_cases hz : M.offd.rows = 0 ∧ M.offd.cols = 0
  · simp only [ParMat.init, bind_assoc, ok_bind, if_pos hz]
  · simp only [ParMat.init, bind_assoc, ok_bind, if_neg hz]

theorem bindOk {β γ : Type} {x : Res β} {f : β → Res γ} {y : γ} (h : x >>= f = .ok y) : ∃ a, x = .ok a ∧ f a = .ok y := bind_eq_ok.mp h

/-- What the checks make certain. -/
theorem init_fits {M N : ParMat α} {n : Int × Int} (hs : ParMatVal.startsOk M.rowStarts M.colStarts = .ok n) (h : ParMat.init (fun A => A) M = .ok N) :
    Fits N ∧ N.rowStarts = M.rowStarts ∧ N.colStarts = M.colStarts ∧ N.colMap = M.colMap := by
  unfold ParMatVal.startsOk at hs
  obtain ⟨r1, e1, hs⟩ := bind_eq_ok.mp hs
  obtain ⟨r0, e0, hs⟩ := bind_eq_ok.mp hs
  obtain ⟨c1, f1, hs⟩ := bind_eq_ok.mp hs
  obtain ⟨c0, f0, hs⟩ := bind_eq_ok.mp hs
  obtain ⟨u1, g1, hs⟩ := bind_eq_ok.mp hs
  obtain ⟨u2, g2, hs⟩ := bind_eq_ok.mp hs
  have p1 := cassert_ok_iff.mp g1
  have p2 := cassert_ok_iff.mp g2
  unfold ParMat.init at h
  obtain ⟨v1, k1, h⟩ := bind_eq_ok.mp h
  obtain ⟨v2, k2, h⟩ := bind_eq_ok.mp h
  have l1 := cassert_ok_iff.mp k1
  have l2 := cassert_ok_iff.mp k2
  obtain ⟨a0, a1, a2, ea⟩ := starts_three l1
  obtain ⟨b0, b1, b2, eb⟩ := starts_three l2
  rw [ea] at e0 e1
  rw [eb] at f0 f1
  cases e0; cases e1; cases f0; cases f1
  rw [ea, eb] at h
  obtain ⟨_, q, h⟩ := bind_eq_ok.mp h; cases q
  obtain ⟨_, q, h⟩ := bind_eq_ok.mp h; cases q
  obtain ⟨_, q, h⟩ := bind_eq_ok.mp h; cases q
  obtain ⟨_, q, h⟩ := bind_eq_ok.mp h; cases q
  obtain ⟨_, q, h⟩ := bind_eq_ok.mp h; cases q
  obtain ⟨_, q, h⟩ := bind_eq_ok.mp h; cases q
  obtain ⟨_, -, h⟩ := bind_eq_ok.mp h
  obtain ⟨_, -, h⟩ := bind_eq_ok.mp h
  obtain ⟨_, -, h⟩ := bind_eq_ok.mp h
  obtain ⟨_, -, h⟩ := bind_eq_ok.mp h
  have fin : ∀ offd : Csr α, (do
      cassert (M.diag.rows = r1 - r0)
      cassert (M.diag.cols = c1 - c0)
      cassert (offd.rows = r1 - r0)
      cassert (offd.cols = (M.colMap.length : Int))
      forUp 0 (M.colMap.length : Int) () (fun i _ => ({ M with rows := r1 - r0, cols := c1 - c0, offd := offd } : ParMat α).checkCol (M.colMap.length : Int) i)
      Except.ok { M with rows := r1 - r0, cols := c1 - c0, offd := offd }) = (.ok N : Res (ParMat α)) →
      Fits N ∧ N.rowStarts = M.rowStarts ∧ N.colStarts = M.colStarts ∧ N.colMap = M.colMap := by
    intro offd h
    obtain ⟨_, q1, h⟩ := bind_eq_ok.mp h
    obtain ⟨_, q2, h⟩ := bind_eq_ok.mp h
    obtain ⟨_, q3, h⟩ := bind_eq_ok.mp h
    obtain ⟨_, q4, h⟩ := bind_eq_ok.mp h
    obtain ⟨_, -, h⟩ := bind_eq_ok.mp h
    cases h
    have q1 := cassert_ok_iff.mp q1
    have q2 := cassert_ok_iff.mp q2
    have q3 := cassert_ok_iff.mp q3
    refine ⟨⟨l1, l2, ?_, ?_, q1, q2, q3, p1, p2⟩, rfl, rfl, rfl⟩
    · show r1 - r0 = _
      rw [ea]; rfl
    · show c1 - c0 = _
      rw [eb]; rfl
  rw [← ea, ← eb] at h
  dsimp only at h
  split at h
  · obtain ⟨offd, -, h⟩ := bind_eq_ok.mp h
    exact fin offd h
  · exact fin M.offd h

end ParMatObj
end Linalg
