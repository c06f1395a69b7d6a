import Verif.Proof.HandlesMat

/-!
# ParMatrix objects behave as values
-/

namespace Linalg
open Cpp

variable {α : Type}

namespace ParMatObj
open Hypre
variable {m : Mem (HCell α)}

theorem nodup_left {β : Type} {fp fq : List (Nat × β)} (h : ((fp ++ fq).map Prod.fst).Nodup) : (fp.map Prod.fst).Nodup := by
  rw [List.map_append, List.nodup_append] at h
  exact h.1

theorem owns_new (m : Mem (HCell α)) (ds : List (HCell α)) (fp : List (Nat × HCell α)) (h : fp = Mem.place m.length ds) :
    ∃ s, m.Grown (m ++ ds.map some) s ∧ (m ++ ds.map some).Owns fp s := by
  subst h
  exact ⟨_, Mem.grown_place m ds, Mem.owns_place m ds⟩

/-- The empty matrix. -/
def none0 : ParMat α := ⟨0, 0, [], [], Csr.empty, Csr.empty, []⟩

theorem blank_ok (m : Mem (HCell α)) : ∃ s, m.Grown (blank m).1 s ∧ Stands (blank m).1 (blank m).2 .void s := by
  have e : blank m = (m ++ [HCell.ints [], .ints [], .ints [0], .ints [], .reals [], .ints [0], .ints [], .reals [], .ints []].map some,
      ⟨⟨0, 0, 0, -1, m.length, m.length + 1, .null, .null⟩, .null, ⟨0, 0, m.length + 2, m.length + 3, m.length + 4⟩,
        ⟨0, 0, m.length + 5, m.length + 6, m.length + 7⟩, m.length + 8⟩) := by
    simp [blank, ParOpObj.blank, CsrObj.new, Mem.alloc, Csr.empty]
  rw [e]
  obtain ⟨s, h1, h2⟩ := owns_new m [HCell.ints [], .ints [], .ints [0], .ints [], .reals [], .ints [0], .ints [], .reals [], .ints []] _ rfl
  refine ⟨s, h1, rfl, rfl, rfl, ⟨rfl, rfl⟩, ⟨rfl, rfl, rfl, rfl, rfl, rfl⟩, ?_⟩
  have e2 : (ownCells ⟨⟨0, 0, 0, -1, m.length, m.length + 1, .null, .null⟩, .null, ⟨0, 0, m.length + 2, m.length + 3, m.length + 4⟩,
        ⟨0, 0, m.length + 5, m.length + 6, m.length + 7⟩, m.length + 8⟩ (⟨0, 0, [], [], Csr.empty, Csr.empty, []⟩ : ParMat α) none) =
      Mem.place m.length [HCell.ints [], .ints [], .ints [0], .ints [], .reals [], .ints [0], .ints [], .reals [], .ints []] := by
    simp [ownCells, ParOpObj.cells, CsrObj.cells, Mem.place, Csr.empty]
  rw [e2]
  exact h2

theorem make_ok (r : Csr α → Csr α) (m : Mem (HCell α)) (a : Args α) : match ParMatVal.make r a with
    | .ok v => ∃ m' o s, make r m a = .ok (m', o) ∧ m.Grown m' s ∧ Stands m' o v s
    | .error e => make r m a = .error e := by
  cases a with
  | none =>
    obtain ⟨s, h1, h2⟩ := blank_ok m
    exact ⟨_, _, s, rfl, h1, h2⟩
  | all comm rank rs cs D F cm =>
    have a1 : ParMatVal.make r (.all comm rank rs cs D F cm) = (do
      let n ← ParMatVal.startsOk rs cs
      if comm = 0 then .error .undefinedBehaviour
      else do
        let M ← ParMat.init (ParMatVal.inPlace r) ⟨n.1, n.2, rs, cs, D, F, cm⟩
        .ok (.full comm rank true M)) := rfl
    have a2 : make r m (.all comm rank rs cs D F cm) = (do
      let x ← ParOpObj.make m comm rank rs cs
      let M ← ParMat.init (fun A => A) ⟨x.2.rows, x.2.cols, rs, cs, D, F, cm⟩
      let y := CsrObj.new x.1 M.diag
      let z := CsrObj.new y.1 M.offd
      let c := z.1.alloc (.ints cm)
      hypreCreate r c.1 ⟨{ x.2 with rows := M.rows, cols := M.cols }, .null, y.2, z.2, c.2⟩) := rfl
    rw [a1, a2]
    cases hs : ParMatVal.startsOk rs cs with
    | error e => rw [ParOpObj.make_error m comm rank rs cs e hs]; rfl
    | ok n =>
      rw [ok_bind]
      by_cases hc : comm = 0
      · rw [if_pos hc, ParOpObj.make_bad m comm rank rs cs n hs hc]; rfl
      · rw [if_neg hc]
        obtain ⟨ds, p, v, e1, e2, e3, e4, e5, e6, e7⟩ := ParOpObj.make_ok m comm rank rs cs n hs hc
        rw [e1, ok_bind, init_inPlace (ParMatVal.inPlace r)]
        dsimp only
        rw [e4, e5]
        cases hi : ParMat.init (fun A => A) ⟨n.1, n.2, rs, cs, D, F, cm⟩ with
        | error e => rfl
        | ok N =>
          obtain ⟨hf, g1, g2, g3⟩ := init_fits (n := n) hs hi
          simp only [ok_bind]
          have k := stands_new r m ds { p with rows := N.rows, cols := N.cols } (some v) N hf (by show p.comm ≠ 0; rw [e6]; exact hc)
            (by rw [g1, g2]; exact e2) e3 rfl rfl
          simp only [CsrObj.new_eq, Mem.alloc]
          rw [← show N.colMap = cm from g3]
          simpa [e6, e7, Nat.add_assoc] using k

/-- Three arrays put in place, then the column map. -/
theorem tail_eq (m : Mem (HCell α)) (M : ParMat α) (p : ParOpObj) (o : ParMatObj) (h : m.Has (o.diag.cells M.diag ++ (o.offd.cells M.offd ++ [(o.colMap, .ints M.colMap)])))
    (hs : Sized o M) (f : Mem (HCell α) → ParMatObj → Res (Mem (HCell α) × ParMatObj)) : (do
      let x ← CsrObj.copy m o.diag
      let y ← CsrObj.copy x.1 o.offd
      let cm ← ints y.1 (.to o.colMap)
      f (y.1.alloc (.ints cm)).1 ⟨p, .null, x.2, y.2, (y.1.alloc (.ints cm)).2⟩) =
    f (m ++ [some (.ints M.diag.indptr), some (.ints M.diag.indices), some (.reals M.diag.data),
        some (.ints M.offd.indptr), some (.ints M.offd.indices), some (.reals M.offd.data), some (.ints M.colMap)])
      ⟨p, .null, ⟨M.diag.rows, M.diag.cols, m.length, m.length + 1, m.length + 2⟩, ⟨M.offd.rows, M.offd.cols, m.length + 3, m.length + 4, m.length + 5⟩,
        m.length + 6⟩ := by
  obtain ⟨h1, h2⟩ := Mem.has_append.mp h
  have app : ∀ {fp : List (Nat × HCell α)} (t : List (Option (HCell α))), m.Has fp → Mem.Has (m ++ t) fp := by
    intro fp t hh q hq
    have := hh q hq
    rw [List.getElem?_append_left (List.getElem?_eq_some_iff.mp this).1]
    exact this
  obtain ⟨h2, h3⟩ := Mem.has_append.mp h2
  rw [CsrObj.copy_eq h1 hs.drows hs.dcols, ok_bind]
  simp only [CsrObj.new_eq]
  rw [CsrObj.copy_eq (app _ h2) hs.frows hs.fcols, ok_bind]
  simp only [CsrObj.new_eq]
  have a3 := app ([some (.ints M.diag.indptr), some (.ints M.diag.indices), some (.reals M.diag.data)] ++
    [some (.ints M.offd.indptr), some (.ints M.offd.indices), some (.reals M.offd.data)]) h3 (o.colMap, .ints M.colMap) (by simp)
  rw [← List.append_assoc] at a3
  simp only [ints, deref, ok_bind, Mem.get_ok a3, Mem.alloc]
  simp [Nat.add_assoc]

theorem copy_eq (r : Csr α → Csr α) (m : Mem (HCell α)) (o : ParMatObj) : copy r m o = (do
    let w ← ParOpObj.copy m o.op
    let x ← CsrObj.copy w.1 o.diag
    let y ← CsrObj.copy x.1 o.offd
    let cm ← ints y.1 (.to o.colMap)
    (fun m o' => if o.A = .null then .ok (m, o') else hypreCreate r m o') (y.1.alloc (.ints cm)).1 ⟨w.2, .null, x.2, y.2, (y.1.alloc (.ints cm)).2⟩) := rfl

theorem copy_ok (r : Csr α → Csr α) {o : ParMatObj} {v : ParMatVal α} {s : List Nat} (h : Stands m o v s) : match ParMatVal.copy r v with
    | .ok v' => ∃ m' o' s', copy r m o = .ok (m', o') ∧ m.Grown m' s' ∧ Stands m' o' v' s'
    | .error e => copy r m o = .error e := by
  have app : ∀ {fp : List (Nat × HCell α)} (t : List (Option (HCell α))), m.Has fp → Mem.Has (m ++ t) fp := by
    intro fp t hh q hq
    have := hh q hq
    rw [List.getElem?_append_left (List.getElem?_eq_some_iff.mp this).1]
    exact this
  cases v with
  | full comm rank views M =>
    obtain ⟨h1, h2, h3, h4, h5, d, f, A, n, p, w, h6, h7, h8, h9, -, -⟩ := h
    show ∃ m' o' s', copy r m o = .ok (m', o') ∧ m.Grown m' s' ∧ Stands m' o' _ s'
    obtain ⟨h9, -⟩ := Mem.has_append.mp h9
    obtain ⟨ho, ht⟩ := Mem.has_append.mp h9
    have b1 : m[o.op.rowStarts]? = some (some (.ints M.rowStarts)) := ho (o.op.rowStarts, .ints M.rowStarts) (by simp [ParOpObj.cells])
    have b2 : m[o.op.colStarts]? = some (some (.ints M.colStarts)) := ho (o.op.colStarts, .ints M.colStarts) (by simp [ParOpObj.cells])
    obtain ⟨ds, q, w', e1, e2, e3, e4, e5, e6, e7, e8⟩ := ParOpObj.copy_ok (by rw [h4.rlen]) (by rw [h4.clen]) b1 b2 (by rw [h5.rows]; exact h4.rnn)
      (by rw [h5.cols]; exact h4.cnn)
    rw [copy_eq, e1, ok_bind]
    dsimp only
    rw [tail_eq (m ++ ds.map some) M q o (app _ ht) h5 (fun m o' => if o.A = .null then .ok (m, o') else hypreCreate r m o')]
    rw [if_neg (by rw [h6]; simp)]
    have k := stands_new r m ds q w' M h4 (by rw [e6, h1]; exact h3) e2 e3 (by rw [e4, h5.rows]) (by rw [e5, h5.cols])
    rw [e6, e7, e8, h1, h2] at k
    exact k
  | void =>
    obtain ⟨h1, h2, h3, h4, h5, h9, -, -⟩ := h
    show ∃ m' o' s', copy r m o = .ok (m', o') ∧ m.Grown m' s' ∧ Stands m' o' .void s'
    obtain ⟨ho, ht⟩ := Mem.has_append.mp h9
    have b1 : m[o.op.rowStarts]? = some (some (.ints [])) := ho (o.op.rowStarts, .ints []) (by simp [ParOpObj.cells])
    have b2 : m[o.op.colStarts]? = some (some (.ints [])) := ho (o.op.colStarts, .ints []) (by simp [ParOpObj.cells])
    have l2 := (List.getElem?_eq_some_iff.mp b2).1
    have b2' : (m ++ [some (.ints [])])[o.op.colStarts]? = some (some (.ints [])) := by rw [List.getElem?_append_left l2]; exact b2
    have e1 : ParOpObj.copy m o.op = .ok (m ++ [some (.ints []), some (.ints [])], ⟨0, 0, 0, -1, m.length, m.length + 1, .null, .null⟩) := by
      simp [ParOpObj.copy, h5.rows, h5.cols, cassert, ok_bind, ints, deref, Mem.get_ok b1, Mem.get_ok b2', Mem.alloc, h1, h2]
    rw [copy_eq, e1, ok_bind]
    dsimp only
    rw [tail_eq _ _ _ o (app _ ht) h5 (fun m o' => if o.A = .null then .ok (m, o') else hypreCreate r m o')]
    rw [if_pos h3]
    obtain ⟨s, g1, g2⟩ := blank_ok m
    have e : blank m = (m ++ [some (HCell.ints []), some (.ints []), some (.ints [0]), some (.ints []), some (.reals []), some (.ints [0]), some (.ints []), some (.reals []), some (.ints [])],
        ⟨⟨0, 0, 0, -1, m.length, m.length + 1, .null, .null⟩, .null, ⟨0, 0, m.length + 2, m.length + 3, m.length + 4⟩,
          ⟨0, 0, m.length + 5, m.length + 6, m.length + 7⟩, m.length + 8⟩) := by
      simp [blank, ParOpObj.blank, CsrObj.new, Mem.alloc, Csr.empty]
    rw [e] at g1 g2
    refine ⟨_, _, s, ?_, g1, g2⟩
    simp [Csr.empty]

theorem destroy_ok {o : ParMatObj} {v : ParMatVal α} {s : List Nat} (h : Stands m o v s) : ∃ m', destroy m o = .ok m' ∧ m.Freed m' s := by
  cases v with
  | full comm rank views M =>
    obtain ⟨h1, h2, h3, h4, h5, d, f, A, n, p, w, h6, h7, h8, h9, rfl, hn⟩ := h
    have perm := List.perm_append_comm (l₁ := o.ownCells M w) (l₂ := o.hypCells M d f A n p)
    have hn' := (List.Perm.nodup_iff (perm.map Prod.fst)).mp hn
    have h9' : m.Has (o.hypCells M d f A n p ++ o.ownCells M w) := fun q hq => h9 q (perm.mem_iff.mpr hq)
    obtain ⟨m1, e1, f1⟩ := hypreDestroy_ok (Mem.has_append.mp h9').1 h6 (nodup_left hn')
    obtain ⟨h10, n10⟩ := h9'.rest hn' f1
    obtain ⟨m2, e2, f2⟩ := destroyOwn_ok h10 h7 n10
    refine ⟨m2, by rw [destroy_eq, e1, ok_bind]; exact e2, (f1.trans f2).congr ?_⟩
    intro k
    simp only [List.map_append, List.mem_append]
    tauto
  | void =>
    obtain ⟨h1, h2, h3, h4, h5, h9, rfl, hn⟩ := h
    obtain ⟨m2, e2, f2⟩ := destroyOwn_ok h9 h4 hn
    refine ⟨m2, ?_, f2⟩
    rw [destroy_eq]
    simp only [hypreDestroy, h3, ok_bind]
    exact e2

/-- Scaling puts new numbers in two arrays. -/
theorem update_own [Mul α] {o : ParMatObj} {M : ParMat α} {w : Option (Nat × Nat × Nat × Nat)} {gs : List (Nat × HCell α)} (c : α)
    (h : m.Has (o.ownCells M w ++ gs)) (hn : ((o.ownCells M w ++ gs).map Prod.fst).Nodup) :
    ∃ m', update m o c = .ok m' ∧ m.Changed m' ((o.ownCells M w ++ gs).map Prod.fst) ∧ m'.Has (o.ownCells (M.scale c) w ++ gs) := by
  have b1 : m[o.diag.data]? = some (some (.reals M.diag.data)) := h (o.diag.data, .reals M.diag.data) (by simp [ownCells, CsrObj.cells])
  have b2 : m[o.offd.data]? = some (some (.reals M.offd.data)) := h (o.offd.data, .reals M.offd.data) (by simp [ownCells, CsrObj.cells])
  have l1 := (List.getElem?_eq_some_iff.mp b1).1
  have l2 := (List.getElem?_eq_some_iff.mp b2).1
  have hn' := hn
  have hne : o.diag.data ≠ o.offd.data ∧ (∀ q ∈ o.op.cells M.rowStarts M.colStarts w ++ [(o.diag.indptr, .ints M.diag.indptr), (o.diag.indices, .ints M.diag.indices),
      (o.offd.indptr, .ints M.offd.indptr), (o.offd.indices, .ints M.offd.indices), (o.colMap, .ints M.colMap)] ++ gs, q.1 ≠ o.diag.data ∧ q.1 ≠ o.offd.data) := by
    simp only [ownCells, CsrObj.cells, List.map_append, List.map_cons, List.append_assoc, List.cons_append, List.nil_append] at hn
    generalize hA : o.op.cells M.rowStarts M.colStarts w = X at hn ⊢
    rw [List.nodup_append] at hn
    obtain ⟨-, hn2, hn3⟩ := hn
    simp only [List.nodup_cons, List.mem_cons, not_or] at hn2
    refine ⟨by tauto, ?_⟩
    intro q hq
    simp only [List.mem_append, List.mem_cons, List.not_mem_nil, or_false] at hq
    rcases hq with (hq | rfl | rfl | rfl | rfl | rfl) | hq
    · have := List.mem_map_of_mem (f := Prod.fst) hq
      exact ⟨hn3 _ this _ (by simp), hn3 _ this _ (by simp)⟩
    · exact ⟨by tauto, by tauto⟩
    · exact ⟨by tauto, by tauto⟩
    · exact ⟨fun e => by simp only at e; tauto, by tauto⟩
    · exact ⟨fun e => by simp only at e; tauto, by tauto⟩
    · exact ⟨fun e => by simp only at e; tauto, fun e => by simp only at e; tauto⟩
    · have := List.mem_map_of_mem (f := Prod.fst) hq
      refine ⟨fun e => ?_, fun e => ?_⟩
      · rw [e] at this; tauto
      · rw [e] at this; tauto
  obtain ⟨hdf, hrest⟩ := hne
  have c2 : (m.set o.diag.data (some (.reals (M.diag.data.map (fun a => a * c)))))[o.offd.data]? = some (some (.reals M.offd.data)) := by
    rw [List.getElem?_set_ne hdf]; exact b2
  have e : update m o c = .ok ((m.set o.diag.data (some (.reals (M.diag.data.map (fun a => a * c))))).set o.offd.data
      (some (.reals (M.offd.data.map (fun a => a * c))))) := by
    simp only [update, updBlock, reals, deref, ok_bind, Mem.get_ok b1, Mem.put_ok b1, Mem.get_ok c2, Mem.put_ok c2]
  have hh : Mem.Has ((m.set o.diag.data (some (.reals (M.diag.data.map (fun a => a * c))))).set o.offd.data
      (some (.reals (M.offd.data.map (fun a => a * c))))) (o.ownCells (M.scale c) w ++ gs) := by
    have old : ∀ q ∈ o.op.cells M.rowStarts M.colStarts w ++ [(o.diag.indptr, .ints M.diag.indptr), (o.diag.indices, .ints M.diag.indices),
      (o.offd.indptr, .ints M.offd.indptr), (o.offd.indices, .ints M.offd.indices), (o.colMap, .ints M.colMap)] ++ gs,
      ((m.set o.diag.data (some (.reals (M.diag.data.map (fun a => a * c))))).set o.offd.data
      (some (.reals (M.offd.data.map (fun a => a * c)))))[q.1]? = some (some q.2) := by
      intro q hq
      obtain ⟨q1, q2⟩ := hrest q hq
      rw [List.getElem?_set_ne (Ne.symm q2), List.getElem?_set_ne (Ne.symm q1)]
      apply h
      simp only [ownCells, CsrObj.cells, List.mem_append, List.mem_cons, List.not_mem_nil, or_false] at hq ⊢
      tauto
    intro q hq
    have hq' : q ∈ o.op.cells M.rowStarts M.colStarts w ++ [(o.diag.indptr, .ints M.diag.indptr), (o.diag.indices, .ints M.diag.indices),
      (o.offd.indptr, .ints M.offd.indptr), (o.offd.indices, .ints M.offd.indices), (o.colMap, .ints M.colMap)] ++ gs ∨
        q = (o.diag.data, .reals (M.diag.data.map (fun a => a * c))) ∨ q = (o.offd.data, .reals (M.offd.data.map (fun a => a * c))) := by
      simp only [ownCells, CsrObj.cells, ParMat.scale, Csr.scale, List.mem_append, List.mem_cons, List.not_mem_nil, or_false] at hq ⊢
      tauto
    rcases hq' with hq' | rfl | rfl
    · exact old q hq'
    · rw [List.getElem?_set_ne (Ne.symm hdf)]; simp [l1]
    · simp [l2]
  refine ⟨_, e, ⟨by simp, ?_, ?_⟩, hh⟩
  · intro k hk
    refine hh.live ?_
    simpa [ownCells, CsrObj.cells, ParMat.scale, Csr.scale] using hk
  · intro k hk
    have k1 : k ≠ o.diag.data := by rintro rfl; exact hk (by simp [ownCells, CsrObj.cells])
    have k2 : k ≠ o.offd.data := by rintro rfl; exact hk (by simp [ownCells, CsrObj.cells])
    rw [List.getElem?_set_ne (Ne.symm k2), List.getElem?_set_ne (Ne.symm k1)]

theorem lawful [Mul α] (r : Csr α → Csr α) : Lawful (cls r) (ParMatVal.vals r) (Stands (α := α)) where
  frame := by
    intro m m' o v s h e
    cases v with
    | full comm rank views M =>
      obtain ⟨h1, h2, h3, h4, h5, d, f, A, n, p, w, h6, h7, h8, h9⟩ := h
      exact ⟨h1, h2, h3, h4, h5, d, f, A, n, p, w, h6, h7, h8, h9.frame e⟩
    | void =>
      obtain ⟨h1, h2, h3, h4, h5, h9⟩ := h
      exact ⟨h1, h2, h3, h4, h5, h9.frame e⟩
  live := by
    intro m o v s h
    cases v with
    | full comm rank views M =>
      obtain ⟨h1, h2, h3, h4, h5, d, f, A, n, p, w, h6, h7, h8, h9⟩ := h
      exact h9.live
    | void =>
      obtain ⟨h1, h2, h3, h4, h5, h9⟩ := h
      exact h9.live
  make := by
    intro m a
    have h := make_ok r m a
    have e : (ParMatVal.vals r).make a = ParMatVal.make r a := rfl
    rw [e]
    cases hv : ParMatVal.make r a with
    | ok v => rw [hv] at h; exact h
    | error e => rw [hv] at h; exact h
  copy := by
    intro m o v s h
    have h := copy_ok r h
    have e : (ParMatVal.vals r).copy v = ParMatVal.copy r v := rfl
    rw [e]
    cases hv : ParMatVal.copy r v with
    | ok v => rw [hv] at h; exact h
    | error e => rw [hv] at h; exact h
  blank := fun m => blank_ok m
  swap := fun _ _ => rfl
  destroy := fun h => destroy_ok h
  update := by
    intro m o v s u h
    cases v with
    | full comm rank views M =>
      obtain ⟨h1, h2, h3, h4, h5, d, f, A, n, p, w, h6, h7, h8, h9, rfl, hn⟩ := h
      obtain ⟨m', e, hc, hh⟩ := update_own u h9 hn
      refine ⟨m', e, hc, h1, h2, h3, ?_, ?_, d, f, A, n, p, w, h6, h7, h8, hh, by simp [ownCells, hypCells, CsrObj.cells, ParMat.scale, Csr.scale], hn⟩
      · exact ⟨h4.rlen, h4.clen, h4.rows, h4.cols, h4.drows, h4.dcols, h4.frows, h4.rnn, h4.cnn⟩
      · exact ⟨h5.rows, h5.cols, h5.drows, h5.dcols, h5.frows, h5.fcols⟩
    | void =>
      obtain ⟨h1, h2, h3, h4, h5, h9, rfl, hn⟩ := h
      obtain ⟨m', e, hc, hh⟩ := update_own (gs := []) u (by simpa using h9) (by simpa using hn)
      rw [List.append_nil] at hc hh
      exact ⟨m', e, hc, h1, h2, h3, h4, h5, hh, by simp [ownCells, CsrObj.cells], hn⟩

end ParMatObj
end Linalg
