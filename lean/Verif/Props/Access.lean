import Verif.Model.Access
import Verif.Props.SparseAccess
import Verif.Props.DenseMore
import Verif.Props.Vector
import Verif.Props.SparseMore
import Verif.Props.Operator

/-!
# Access to the arrays of a matrix (C117), the short forms (C118)
-/

namespace Linalg
open Cpp

variable {α : Type}

namespace Access

theorem flatten_set {β : Type} (rs : List (List β)) (k m : Nat) (h : k < rs.length) (hm : m < rs[k].length) (e : β) :
    rs.flatten.set ((rs.take k).flatten.length + m) e = (rs.set k (rs[k].set m e)).flatten := by
  induction rs generalizing k with
  | nil => simp at h
  | cons r rs ih =>
    cases k with
    | zero =>
      simp only [List.getElem_cons_zero] at hm ⊢
      simp only [List.take_zero, List.flatten_nil, List.length_nil, Nat.zero_add, List.set_cons_zero, List.flatten_cons]
      rw [List.set_append_left _ _ hm]
    | succ k =>
      simp only [List.getElem_cons_succ] at hm ⊢
      simp only [List.take_succ_cons, List.flatten_cons, List.length_append, List.set_cons_succ]
      rw [List.set_append_right _ _ (by omega), ← ih k (by simpa using h) hm]
      congr 2
      omega

theorem ptrs_set {β : Type} (rs : List (List β)) (k : Nat) (r : List β) (h : k < rs.length) (hr : r.length = rs[k].length) :
    ptrs (rs.set k r) = ptrs rs := by
  have hmap : (rs.set k r).map List.length = rs.map List.length := by
    refine List.ext_getElem (by simp) ?_
    intro j h1 h2
    simp only [List.getElem_map, List.getElem_set]
    split
    · next he => subst he; exact hr
    · rfl
  unfold ptrs
  rw [List.length_set]
  refine List.map_congr_left ?_
  intro j _
  rw [List.length_flatten, List.length_flatten, List.map_take, List.map_take, hmap]

theorem ofRows_setIndex (n : Int) (rs : List (List (Int × α))) (k m : Nat) (h : k < rs.length) (hm : m < rs[k].length) (c : Int) :
    { Csr.ofRows n rs with indices := (Csr.ofRows n rs).indices.set ((rs.take k).flatten.length + m) c } =
      Csr.ofRows n (rs.set k (rs[k].set m (c, rs[k][m].2))) := by
  have h1 := flatten_set rs k m h hm (c, rs[k][m].2)
  have hp := ptrs_set rs k (rs[k].set m (c, rs[k][m].2)) h (by simp)
  have hv : rs.flatten.map Prod.snd = (rs.set k (rs[k].set m (c, rs[k][m].2))).flatten.map Prod.snd := by
    rw [← h1, List.map_set]
    have := rd_map_flatten Prod.snd rs k m h hm
    rw [rd_eq_ok] at this
    obtain ⟨_, h3⟩ := this
    rw [Int.toNat_natCast] at h3
    refine List.ext_getElem? ?_
    intro j
    rw [List.getElem?_set]
    split
    · next he =>
      subst he
      rw [h3, if_pos (by simpa using (List.getElem?_eq_some_iff.mp h3).1)]
    · rfl
  unfold Csr.ofRows
  simp only [Csr.mk.injEq]
  refine ⟨by simp, trivial, hp.symm, ?_, hv⟩
  rw [← h1, List.map_set]

theorem ofRows_setData (n : Int) (rs : List (List (Int × α))) (k m : Nat) (h : k < rs.length) (hm : m < rs[k].length) (x : α) :
    { Csr.ofRows n rs with data := (Csr.ofRows n rs).data.set ((rs.take k).flatten.length + m) x } =
      Csr.ofRows n (rs.set k (rs[k].set m (rs[k][m].1, x))) := by
  have h1 := flatten_set rs k m h hm (rs[k][m].1, x)
  have hp := ptrs_set rs k (rs[k].set m (rs[k][m].1, x)) h (by simp)
  have hv : rs.flatten.map Prod.fst = (rs.set k (rs[k].set m (rs[k][m].1, x))).flatten.map Prod.fst := by
    rw [← h1, List.map_set]
    have := rd_map_flatten Prod.fst rs k m h hm
    rw [rd_eq_ok] at this
    obtain ⟨_, h3⟩ := this
    rw [Int.toNat_natCast] at h3
    refine List.ext_getElem? ?_
    intro j
    rw [List.getElem?_set]
    split
    · next he =>
      subst he
      rw [h3, if_pos (by simpa using (List.getElem?_eq_some_iff.mp h3).1)]
    · rfl
  unfold Csr.ofRows
  simp only [Csr.mk.injEq]
  refine ⟨by simp, trivial, hp.symm, hv, ?_⟩
  rw [← h1, List.map_set]

theorem pos_lt {β : Type} (rs : List (List β)) (k m : Nat) (h : k < rs.length) (hm : m < rs[k].length) :
    (rs.take k).flatten.length + m < rs.flatten.length := by
  have hl : (rs.take k).flatten.length + rs[k].length ≤ rs.flatten.length := by
    rw [← take_succ_flatten_length rs k h]
    exact ((List.take_sublist _ _).flatten).length_le
  omega

theorem indicesView_ofRows (n : Int) (rs : List (List (Int × α))) (k : Nat) (h : k < rs.length) :
    (Csr.ofRows n rs).getIndicesView k = .ok ⟨((rs.take k).flatten.length : Nat), (rs[k].length : Nat)⟩ := by
  have e1 : rd (Csr.ofRows n rs).indptr (k : Int) = _ := rd_ptrs rs k h.le
  have e2 : rd (Csr.ofRows n rs).indptr ((k : Int) + 1) = _ := rd_ptrs_succ rs k h
  unfold Csr.getIndicesView
  rw [cassert_true ⟨by omega, by simpa [Csr.ofRows] using h⟩, ok_bind, e1, ok_bind, e2, ok_bind, cassert_true (by push_cast; omega), ok_bind]
  congr 2
  push_cast
  omega

end Access

/-- Row `i` of `B` is that of `A` with entry `k` replaced by `e`; all else is the same. -/
structure Csr.OneEntry {α : Type} (A B : Csr α) (i : Int) (k : Nat) (e : Int × α) : Prop where
  rows_eq : B.rows = A.rows
  cols_eq : B.cols = A.cols
  nnz_eq : B.nnz = A.nnz
  row_eq : B.row i = (A.row i).set k e
  other : ∀ i', i' ≠ i → B.row i' = A.row i'

theorem Access.oneEntry_ofRows (n : Int) (rs : List (List (Int × α))) (k m : Nat) (h : k < rs.length) (e : Int × α) :
    Csr.OneEntry (Csr.ofRows n rs) (Csr.ofRows n (rs.set k (rs[k].set m e))) k m e := by
  refine ⟨by simp [Csr.ofRows], rfl, ?_, ?_, ?_⟩
  · have := congrArg List.getLast? (Access.ptrs_set rs k (rs[k].set m e) h (by simp))
    have h1 : ∀ rs' : List (List (Int × α)), (ptrs rs').getLast? = some (rs'.flatten.length : Int) := by
      intro rs'
      simp only [ptrs, List.range_succ]; simp [-List.length_flatten]
    rw [h1, h1] at this
    simp only [Csr.nnz, Csr.ofRows, List.length_map]
    exact Option.some.inj this
  · rw [Csr.row_ofRows n _ k (by simpa using h), Csr.row_ofRows n rs k h, List.getElem_set_self]
  · intro i' hne
    by_cases h0 : 0 ≤ i'
    · by_cases h1 : i' < rs.length
      · obtain ⟨j, rfl⟩ : ∃ j : Nat, i' = j := ⟨i'.toNat, by omega⟩
        have hj : j < rs.length := by omega
        rw [Csr.row_ofRows n _ j (by simpa using hj), Csr.row_ofRows n rs j hj, List.getElem_set_ne (by omega)]
      · rw [Csr.row_ge _ (by simp [Csr.ofRows]) (by simp [Csr.ofRows]; omega), Csr.row_ge _ (by simp [Csr.ofRows]) (by simp [Csr.ofRows]; omega)]
    · rw [Csr.row_neg _ (by omega), Csr.row_neg _ (by omega)]

/-- **C117.**  `GetIndicesView(i)` has one element for each entry stored in row `i`: its column. -/
theorem C117_view (A : Csr α) (hA : A.WF) (i : Int) (h0 : 0 ≤ i) (h1 : i < A.rows) :
    ∃ v, A.getIndicesView i = .ok v ∧ v.size = (A.row i).length ∧
      ∀ (k : Nat) (h : k < (A.row i).length), v.get A.indices k = .ok (A.row i)[k].1 := by
  obtain ⟨n, rs, hn, hrs, rfl⟩ := hA.exists_rows
  obtain ⟨j, rfl⟩ : ∃ k : Nat, i = k := ⟨i.toNat, by omega⟩
  have hj : j < rs.length := by
    have : ((j : Nat) : Int) < (rs.length : Int) := h1
    omega
  refine ⟨_, Access.indicesView_ofRows n rs j hj, by rw [Csr.row_ofRows n rs j hj], ?_⟩
  intro k hk
  have hk' : k < rs[j].length := by rwa [Csr.row_ofRows n rs j hj] at hk
  unfold View.get
  rw [cassert_true (show (k : Int) < (rs[j].length : Int) by omega), ok_bind]
  have := rd_indices_ofRows n rs j k hj hk'
  push_cast at this
  simp only [Csr.row_ofRows n rs j hj]
  exact this

/-- **C117.**  Writing a column number through the view of row `i` moves that entry of row `i` there and changes nothing else.  The matrix stays
well-formed exactly when the new column is one of the matrix: nothing checks it. -/
theorem C117_setIndex (A : Csr α) (hA : A.WF) (i c : Int) (h0 : 0 ≤ i) (h1 : i < A.rows) (k : Nat) (hk : k < (A.row i).length) :
    ∃ B, A.setIndex i k c = .ok B ∧ A.OneEntry B i k (c, (A.row i)[k].2) ∧ (B.WF ↔ 0 ≤ c ∧ c < A.cols) := by
  obtain ⟨n, rs, hn, hrs, rfl⟩ := hA.exists_rows
  obtain ⟨j, rfl⟩ : ∃ k : Nat, i = k := ⟨i.toNat, by omega⟩
  have hj : j < rs.length := by
    have : ((j : Nat) : Int) < (rs.length : Int) := h1
    omega
  have hk' : k < rs[j].length := by rwa [Csr.row_ofRows n rs j hj] at hk
  simp only [Csr.row_ofRows n rs j hj]
  refine ⟨Csr.ofRows n (rs.set j (rs[j].set k (c, rs[j][k].2))), ?_, Access.oneEntry_ofRows n rs j k hj _, ?_⟩
  · unfold Csr.setIndex
    rw [Access.indicesView_ofRows n rs j hj, ok_bind]
    unfold View.put
    rw [cassert_true (show (k : Int) < (rs[j].length : Int) by omega), ok_bind]
    have hp := Access.pos_lt rs j k hj hk'
    have : wr (Csr.ofRows n rs).indices (((rs.take j).flatten.length + k : Nat) : Int) c = .ok _ := wr_nat (by simpa only [Csr.ofRows, List.length_map] using hp)
    push_cast at this
    rw [this, ok_bind, ← Access.ofRows_setIndex n rs j k hj hk' c]
  · constructor
    · intro hw
      have := (hw.rows_ok (rs[j].set k (c, rs[j][k].2)) ?_ (c, rs[j][k].2) ?_)
      · exact this
      · have hr := Csr.row_ofRows n (rs.set j (rs[j].set k (c, rs[j][k].2))) j (by simpa using hj)
        rw [List.getElem_set_self] at hr
        unfold Csr.rowsL
        rw [List.mem_map]
        exact ⟨j, by simp [Csr.ofRows, hj], hr⟩
      · exact List.mem_set hk' _
    · intro hc
      refine Csr.wf_ofRows hn ?_
      intro r hr e he
      rcases List.mem_or_eq_of_mem_set hr with hr | rfl
      · exact hrs r hr e he
      · rcases List.mem_or_eq_of_mem_set he with he | rfl
        · exact hrs _ (List.getElem_mem hj) e he
        · exact hc

/-- **C117.**  In terms of the coefficients: the value is taken away at the old column and added at the new one. -/
theorem C117_setIndex_coef {R : Type} [AddCommGroup R] (A : Csr R) (hA : A.WF) (i c : Int) (h0 : 0 ≤ i) (h1 : i < A.rows) (k : Nat)
    (hk : k < (A.row i).length) :
    ∃ B, A.setIndex i k c = .ok B ∧ ∀ i' j, B.coef i' j =
      A.coef i' j - (if i' = i ∧ j = (A.row i)[k].1 then (A.row i)[k].2 else 0) + (if i' = i ∧ j = c then (A.row i)[k].2 else 0) := by
  obtain ⟨B, hB, hE, -⟩ := C117_setIndex A hA i c h0 h1 k hk
  refine ⟨B, hB, ?_⟩
  intro i' j
  by_cases hi : i' = i
  · subst hi
    unfold Csr.coef
    rw [hE.row_eq]
    have key : ∀ (l : List (Int × R)) (k : Nat) (hk : k < l.length) (e : Int × R),
        (((l.set k e).filter (fun e => e.1 = j)).map Prod.snd).sum =
          ((l.filter (fun e => e.1 = j)).map Prod.snd).sum - (if j = l[k].1 then l[k].2 else 0) + (if j = e.1 then e.2 else 0) := by
      intro l
      induction l with
      | nil => intro k hk; simp at hk
      | cons a l ih =>
        intro k hk e
        cases k with
        | zero =>
          simp only [List.set_cons_zero, List.getElem_cons_zero, List.filter_cons, eq_comm (a := j)]
          by_cases h2 : a.1 = j <;> by_cases h3 : e.1 = j <;> simp [h2, h3] <;> abel
        | succ k =>
          have hk' : k < l.length := by simpa using hk
          simp only [List.set_cons_succ, List.getElem_cons_succ, List.filter_cons]
          by_cases h2 : a.1 = j
          · simp only [h2, decide_true, if_true, List.map_cons, List.sum_cons]
            rw [ih k hk' e]
            abel
          · simp only [h2, decide_false, Bool.false_eq_true, if_false]
            exact ih k hk' e
    rw [key _ k hk]
    simp
  · unfold Csr.coef
    rw [hE.other i' hi]
    simp [hi]

/-- **C117.**  A position behind the row and a row that does not exist are rejected. -/
theorem C117_rejects (A : Csr α) (hA : A.WF) (i k c : Int) :
    ((i < 0 ∨ A.rows ≤ i) → A.getIndicesView i = .error .assertFail ∧ A.setIndex i k c = .error .assertFail) ∧
    (0 ≤ i → i < A.rows → ((A.row i).length : Int) ≤ k → A.setIndex i k c = .error .assertFail) := by
  constructor
  · intro h
    unfold Csr.setIndex Csr.getIndicesView
    rw [cassert_false (by omega)]
    exact ⟨rfl, rfl⟩
  · intro h0 h1 hk
    obtain ⟨v, hv, hs, -⟩ := C117_view A hA i h0 h1
    unfold Csr.setIndex
    rw [hv, ok_bind]
    unfold View.put
    rw [cassert_false (by omega)]
    rfl

/-- **C117.**  A negative position is not rejected: position -1 of the view of row `i + 1` is the last entry of row `i`, if there is one. -/
theorem C117_negative (A : Csr α) (hA : A.WF) (i c : Int) (h0 : 0 ≤ i) (h1 : i + 1 < A.rows) (hne : A.row i ≠ []) :
    ∃ B, A.setIndex (i + 1) (-1) c = .ok B ∧
      A.OneEntry B i ((A.row i).length - 1) (c, ((A.row i).getLast hne).2) := by
  have hk : (A.row i).length - 1 < (A.row i).length := by
    have := List.length_pos_iff.mpr hne
    omega
  obtain ⟨B, hB, hE, -⟩ := C117_setIndex A hA i c h0 (by omega) _ hk
  refine ⟨B, ?_, ?_⟩
  · rw [← hB]
    obtain ⟨n, rs, hn, hrs, rfl⟩ := hA.exists_rows
    obtain ⟨j, rfl⟩ : ∃ k : Nat, i = k := ⟨i.toNat, by omega⟩
    have hj : j + 1 < rs.length := by
      have : ((j : Nat) : Int) + 1 < (rs.length : Int) := h1
      omega
    have hl : ((Csr.ofRows n rs).row j).length = rs[j].length := by rw [Csr.row_ofRows n rs j (by omega)]
    have hlp : 0 < rs[j].length := by omega
    unfold Csr.setIndex
    have e := Access.indicesView_ofRows n rs (j + 1) hj
    push_cast at e
    rw [e, Access.indicesView_ofRows n rs j (by omega), ok_bind, ok_bind]
    unfold View.put
    rw [cassert_true (by simp only []; omega), cassert_true (by simp only []; omega), ok_bind, ok_bind]
    have hf := take_succ_flatten_length rs j (by omega)
    simp only []
    congr 2
    have h4 : (((rs.map List.length).take (j + 1)).sum : Nat) = (rs.take (j + 1)).flatten.length := by
      rw [List.length_flatten, List.map_take]
    have h5 : (((rs.map List.length).take j).sum : Nat) = (rs.take j).flatten.length := by
      rw [List.length_flatten, List.map_take]
    omega
  · have : (A.row i).getLast hne = (A.row i)[(A.row i).length - 1] := List.getLast_eq_getElem hne
    rw [this]
    exact hE

/-- **C117.**  Nothing is stored before the first row: there, a negative position is outside the array. -/
theorem C117_first (A : Csr α) (hA : A.WF) (k c : Int) (h : 0 < A.rows) (hk : k < 0) : A.setIndex 0 k c = .error .outOfBounds := by
  obtain ⟨n, rs, hn, hrs, rfl⟩ := hA.exists_rows
  have hj : 0 < rs.length := by
    have : (0 : Int) < (rs.length : Int) := h
    omega
  unfold Csr.setIndex
  have e := Access.indicesView_ofRows n rs 0 hj
  push_cast at e
  rw [e, ok_bind]
  unfold View.put
  rw [cassert_true (by simp only []; omega), ok_bind, wr_oob (Or.inl (by simp; omega))]
  rfl

/-- **C117.**  Writing a value through `GetData()` at a position found with `GetIndptr()` changes that value and nothing else. -/
theorem C117_setData (A : Csr α) (hA : A.WF) (i : Int) (x : α) (h0 : 0 ≤ i) (h1 : i < A.rows) (k : Nat) (hk : k < (A.row i).length) :
    ∃ B, A.setData i k x = .ok B ∧ A.OneEntry B i k ((A.row i)[k].1, x) ∧ B.WF := by
  obtain ⟨n, rs, hn, hrs, rfl⟩ := hA.exists_rows
  obtain ⟨j, rfl⟩ : ∃ k : Nat, i = k := ⟨i.toNat, by omega⟩
  have hj : j < rs.length := by
    have : ((j : Nat) : Int) < (rs.length : Int) := h1
    omega
  have hk' : k < rs[j].length := by rwa [Csr.row_ofRows n rs j hj] at hk
  simp only [Csr.row_ofRows n rs j hj]
  refine ⟨Csr.ofRows n (rs.set j (rs[j].set k (rs[j][k].1, x))), ?_, Access.oneEntry_ofRows n rs j k hj _, ?_⟩
  · unfold Csr.setData
    have e1 : rd (Csr.ofRows n rs).indptr (j : Int) = _ := rd_ptrs rs j hj.le
    rw [e1, ok_bind]
    have hp := Access.pos_lt rs j k hj hk'
    have : wr (Csr.ofRows n rs).data (((rs.take j).flatten.length + k : Nat) : Int) x = .ok _ := wr_nat (by simpa only [Csr.ofRows, List.length_map] using hp)
    push_cast at this
    rw [this, ok_bind, ← Access.ofRows_setData n rs j k hj hk' x]
  · refine Csr.wf_ofRows hn ?_
    intro r hr e he
    rcases List.mem_or_eq_of_mem_set hr with hr | rfl
    · exact hrs r hr e he
    · rcases List.mem_or_eq_of_mem_set he with he | rfl
      · exact hrs _ (List.getElem_mem hj) e he
      · exact hrs _ (List.getElem_mem hj) rs[j][k] (List.getElem_mem hk')

/-- C117: a 2 x 3 matrix.  The entry 5 of row 0 moves to column 1; through the view of row 1, position -1 moves the entry 6 of row 0, and a
column 9 that does not exist is stored. -/
example : ∃ A B C : Csr Int, A.WF ∧ A.rows = 2 ∧ A.row 0 = [(2, 5), (0, 6)] ∧ A.row 1 = [(1, 7)] ∧
    A.setIndex 0 0 1 = .ok B ∧ B.row 0 = [(1, 5), (0, 6)] ∧ B.WF ∧
    A.setIndex 1 (-1) 9 = .ok C ∧ C.row 0 = [(2, 5), (9, 6)] ∧ C.row 1 = A.row 1 ∧ ¬ C.WF ∧
    A.setIndex 0 2 1 = .error .assertFail ∧ A.setIndex 0 (-1) 1 = .error .outOfBounds ∧
    A.setData 1 0 8 = .ok ⟨2, 3, [0, 2, 3], [2, 0, 1], [5, 6, 8]⟩ :=
  ⟨⟨2, 3, [0, 2, 3], [2, 0, 1], [5, 6, 7]⟩, ⟨2, 3, [0, 2, 3], [1, 0, 1], [5, 6, 7]⟩, ⟨2, 3, [0, 2, 3], [2, 9, 1], [5, 6, 7]⟩,
    by decide, rfl, by decide, by decide, by decide, by decide, by decide, by decide, by decide, by decide, by decide, by decide, by decide,
    by decide⟩

/-! ## C118: sizes and copies of dense matrices -/

theorem Access.rd_resize (v : List α) (n : Nat) (x : α) (p : Int) (h0 : 0 ≤ p) (h1 : p < n) :
    rd (resize v n x) p = if p < v.length then rd v p else .ok x := by
  obtain ⟨k, rfl⟩ := Int.eq_ofNat_of_zero_le h0
  have hk : k < n := by omega
  rw [rd_nat (by rw [Dense.length_resize]; exact hk)]
  unfold resize
  split
  · next h =>
    have h' : k < v.length := by omega
    rw [rd_nat h', List.getElem_append_left (by simp; omega)]
    simp
  · next h =>
    rw [List.getElem_append_right (by simp; omega)]
    simp

theorem Access.get_eq_rd (D : Dense α) (i j : Int) (i0 : 0 ≤ i) (i1 : i < D.rows) (j0 : 0 ≤ j) (j1 : j < D.cols) :
    D.get i j = rd D.data (i + j * D.rows) := by
  unfold Dense.get Dense.checkIdx
  rw [cassert_true i0, cassert_true j0, cassert_true i1, cassert_true j1]
  rfl

/-- **C118.**  `SetSize(r, c, val)` keeps the buffer, not the positions: the entry at `(i, j)` afterwards is the one that was at place
`i + j * r` when the old matrix is read column after column, and `val` behind its end. -/
theorem C118_setSize (D : Dense α) (hD : D.WF) (r c : Int) (val : α) (hr : 0 ≤ r) (hc : 0 ≤ c) :
    ∃ E, D.setSizeVal r c val = .ok E ∧ E.WF ∧ E.rows = r ∧ E.cols = c ∧
      ∀ i j, 0 ≤ i → i < r → 0 ≤ j → j < c → E.get i j =
        if i + j * r < D.rows * D.cols then D.get ((i + j * r) % D.rows) ((i + j * r) / D.rows) else .ok val := by
  have hrc : 0 ≤ r * c := by positivity
  unfold Dense.setSizeVal
  rw [cassert_true hr, cassert_true hc, ok_bind, ok_bind]
  refine ⟨_, rfl, ⟨hr, hc, ?_⟩, rfl, rfl, ?_⟩
  · simp only [Dense.length_resize]; omega
  · intro i j i0 i1 j0 j1
    rw [Access.get_eq_rd _ i j i0 i1 j0 j1]
    have hp0 : 0 ≤ i + j * r := by positivity
    have hp1 : i + j * r < r * c := by
      have : (j + 1) * r ≤ c * r := mul_le_mul_of_nonneg_right (by omega) hr
      nlinarith
    simp only []
    rw [Access.rd_resize _ _ _ _ hp0 (by omega), hD.size]
    split
    · next h =>
      have hrow : 0 < D.rows := by
        rcases (lt_or_eq_of_le hD.rows_nonneg) with h' | h'
        · exact h'
        · rw [← h'] at h; omega
      have h2 := Int.emod_add_mul_ediv (i + j * r) D.rows
      rw [Access.get_eq_rd D _ _ (Int.emod_nonneg _ hrow.ne') (Int.emod_lt_of_pos _ hrow) (Int.ediv_nonneg hp0 hrow.le)
        (Int.ediv_lt_of_lt_mul hrow (by rw [mul_comm D.cols]; exact h))]
      congr 1
      rw [mul_comm ((i + j * r) / D.rows)]
      exact h2.symm
    · rfl

/-- **C118.**  When the number of rows stays, the columns both have keep their entries and new columns are filled. -/
theorem C118_sameRows (D : Dense α) (hD : D.WF) (c : Int) (val : α) (hc : 0 ≤ c) :
    ∃ E, D.setSizeVal D.rows c val = .ok E ∧ E.WF ∧ E.rows = D.rows ∧ E.cols = c ∧
      ∀ i j, 0 ≤ i → i < D.rows → 0 ≤ j → j < c → E.get i j = if j < D.cols then D.get i j else .ok val := by
  obtain ⟨E, h1, h2, h3, h4, h5⟩ := C118_setSize D hD D.rows c val hD.rows_nonneg hc
  refine ⟨E, h1, h2, h3, h4, ?_⟩
  intro i j i0 i1 j0 j1
  rw [h5 i j i0 i1 j0 j1]
  have hr : 0 < D.rows := by omega
  have e1 : (i + j * D.rows) % D.rows = i := by rw [Int.add_mul_emod_self_right]; exact Int.emod_eq_of_lt i0 i1
  have e2 : (i + j * D.rows) / D.rows = j := by
    rw [Int.add_mul_ediv_right _ _ hr.ne', Int.ediv_eq_zero_of_lt i0 i1]; omega
  rw [e1, e2]
  by_cases h : j < D.cols
  · rw [if_pos h, if_pos]
    have : (j + 1) * D.rows ≤ D.cols * D.rows := mul_le_mul_of_nonneg_right (by omega) hr.le
    nlinarith
  · rw [if_neg h, if_neg]
    have : D.cols * D.rows ≤ j * D.rows := mul_le_mul_of_nonneg_right (by omega) hr.le
    nlinarith

/-- **C118.**  When it changes they move: after `SetSize(3, 3)` the entry (0, 1) of a 2 x 2 matrix is not what it was. -/
theorem C118_moved : ∃ D E : Dense Int, D.WF ∧ D.rows = 2 ∧ D.cols = 2 ∧ D.setSize 3 3 = .ok E ∧ D.get 0 1 = .ok 2 ∧ E.get 0 1 = .ok 4 ∧
    E.get 2 0 = .ok 2 ∧ E.get 1 1 = .ok 0 :=
  ⟨⟨2, 2, [1, 3, 2, 4]⟩, ⟨3, 3, [1, 3, 2, 4, 0, 0, 0, 0, 0]⟩, by decide, rfl, rfl, by decide, by decide, by decide, by decide, by decide⟩

/-- **C118.**  The forms with fewer arguments.  `SetSize(r, c)` fills with 0, `DenseMatrix(n)` and `SetSize(n)` are n x n, and a negative size is
rejected. -/
theorem C118_square [Zero α] (D : Dense α) (n : Int) (val : α) :
    (0 ≤ n → ∃ E : Dense α, Dense.square n = .ok E ∧ E.Is n n (fun _ _ => 0)) ∧
    (0 ≤ n → ∃ E, D.setSizeSquareVal n val = .ok E ∧ E.rows = n ∧ E.cols = n ∧ E = { E with data := resize D.data (n * n).toNat val }) ∧
    (0 ≤ n → ∃ E, D.setSizeSquare n = .ok E ∧ D.setSizeSquareVal n 0 = .ok E) ∧
    (n < 0 → (Dense.square n : Res (Dense α)) = .error .assertFail ∧ D.setSizeSquare n = .error .assertFail ∧
      D.setSizeSquareVal n val = .error .assertFail) := by
  refine ⟨?_, ?_, ?_, ?_⟩
  · intro h
    obtain ⟨k, rfl⟩ := Int.eq_ofNat_of_zero_le h
    exact ⟨_, Dense.zeros_ofFn k k, Dense.is_ofFn k k _⟩
  · intro h
    unfold Dense.setSizeSquareVal Dense.setSizeVal
    rw [cassert_true h]
    exact ⟨_, rfl, rfl, rfl, rfl⟩
  · intro h
    unfold Dense.setSizeSquareVal Dense.setSizeSquare Dense.setSizeVal Dense.setSize
    rw [cassert_true h]
    exact ⟨_, rfl, rfl⟩
  · intro h
    unfold Dense.setSizeSquareVal Dense.setSizeSquare Dense.setSizeVal Dense.setSize Dense.square Dense.zeros Dense.ofData
    rw [mkVec_int (by nlinarith), cassert_false (by omega)]
    exact ⟨rfl, rfl, rfl⟩

/-- **C118.**  `CopyData(data)` leaves in `data` the elements of the matrix, whatever it held. -/
theorem C118_copyData [Zero α] (D : Dense α) (data : List α) : D.copyData data = .ok D.data := by
  unfold Dense.copyData
  have hl : (resize data D.data.length (0 : α)).length = D.data.length := Dense.length_resize _ _ _
  generalize resize data D.data.length (0 : α) = w at hl
  simp only []
  rw [eq_vecFn_vecAt w, hl]
  conv_rhs => rw [eq_vecFn_vecAt D.data]
  apply fillLoop
  intro i h a b _
  rw [vecAt_int D.data a (by exact_mod_cast b), rd_int a (by exact_mod_cast b), ok_bind]

/-- **C118.**  The forms of `GetCol` and `GetRow` that return a vector, and the form of `GetCol` for a matrix that is not constant, give the
column and the row. -/
theorem C118_getCol [Zero α] (D : Dense α) (hD : D.WF) (k : Int) (h0 : 0 ≤ k) :
    (k < D.cols → ∃ v, D.getColNew k = .ok v ∧ VecIs v D.rows (fun i => D.entry i k)) ∧
    (k < D.rows → ∃ v, D.getRowNew k = .ok v ∧ VecIs v D.cols (fun j => D.entry k j)) ∧
    (k < D.cols → ∀ v : List α, (v.length : Int) = D.rows → D.getColAssign k v = D.getColInto k v) := by
  refine ⟨?_, ?_, ?_⟩
  · intro hk
    unfold Dense.getColNew
    rw [mkVec_int hD.rows_nonneg, ok_bind]
    exact (C34_getCol_getRow D hD k _ h0).1 hk (by have := hD.rows_nonneg; simp; omega)
  · intro hk
    unfold Dense.getRowNew
    rw [mkVec_int hD.cols_nonneg, ok_bind]
    exact (C34_getCol_getRow D hD k _ h0).2 hk (by have := hD.cols_nonneg; simp; omega)
  · intro hk v hv
    obtain ⟨w, hw, hI⟩ := (C34_getCol_getRow D hD k v h0).1 hk hv
    have hkr : 0 ≤ k * D.rows := mul_nonneg h0 hD.rows_nonneg
    have hend : k * D.rows + D.rows ≤ D.data.length := by
      have : (k + 1) * D.rows ≤ D.cols * D.rows := mul_le_mul_of_nonneg_right (by omega) hD.rows_nonneg
      have := hD.size
      nlinarith
    have hap : View.SameOrApart ⟨D.data.length, v.length⟩ ⟨k * D.rows, D.rows⟩ := by
      right
      intro p hp
      obtain ⟨⟨h1, h2⟩, h3, h4⟩ := hp
      simp only at h1 h2 h3 h4
      omega
    obtain ⟨m, hm, hU⟩ := C28_assign ⟨D.data.length, v.length⟩ ⟨k * D.rows, D.rows⟩ (D.data ++ v)
      ⟨by simp, by simp, by simp⟩ ⟨hkr, hD.rows_nonneg, by simp; omega⟩ hv.symm hap
    unfold Dense.getColAssign
    rw [cassert_true ⟨h0, hk⟩, ok_bind, hm, ok_bind, hw]
    congr 1
    have hml : m.length = D.data.length + v.length := by
      have := hU.length_eq
      simp at this; omega
    refine VecIs.unique ⟨by simp [hml]; omega, ?_⟩ hI
    intro i i0 i1
    have e1 : rd (m.drop D.data.length) i = rd m (D.data.length + i) := by
      obtain ⟨n, rfl⟩ := Int.eq_ofNat_of_zero_le i0
      rw [rd_nat (by simp [hml]; omega), show ((D.data.length : Int) + (n : Int)) = ((D.data.length + n : Nat) : Int) by push_cast; rfl,
        rd_nat (by omega)]
      simp
    rw [e1, hU.get_eq _ (by omega) (by simp; omega), if_pos ⟨by simp; omega, by simp; omega⟩]
    simp only []
    rw [show k * D.rows + ((D.data.length : Int) + i - D.data.length) = k * D.rows + i by ring]
    rw [vecAt_append_left _ _ (by omega) (by omega)]
    unfold Dense.entry
    rw [Access.get_eq_rd D i k i0 i1 h0 hk, show i + k * D.rows = k * D.rows + i by ring, rd_vecAt _ (by omega) (by omega)]

/-- **C118.**  The constructors that take one size give square matrices without entries; `Reserve` changes nothing a caller can see; a
negative size is rejected by all of them. -/
theorem C118_empty [AddMonoid α] (C : Coo α) (n : Int) :
    (0 ≤ n → (∃ A : Csr α, Csr.square n = .ok A ∧ A.rows = n ∧ A.cols = n ∧ A.WF ∧ ∀ i j, A.coef i j = 0) ∧
      (∃ K : Coo α, Coo.square n = .ok K ∧ K.findSize = (n, n) ∧ ∀ i j, K.coef i j = 0) ∧
      (∃ L : Lil α, Lil.square n = .ok L ∧ L.findSize = (n, n) ∧ ∀ i j, L.coef i j = 0) ∧
      C.reserve n = .ok C) ∧
    (n < 0 → (Csr.square n : Res (Csr α)) = .error .assertFail ∧ (Coo.square n : Res (Coo α)) = .error .assertFail ∧
      (Lil.square n : Res (Lil α)) = .error .assertFail ∧ C.reserve n = .error .assertFail) := by
  constructor
  · intro h
    refine ⟨?_, ?_, ?_, ?_⟩
    · obtain ⟨-, ⟨Z, h1, h2, h3, h4, h5⟩, -⟩ := C11_other_constructors (α := α) n n h h []
      exact ⟨Z, h1, h3, h4, h2, fun i j => by unfold Csr.coef; rw [h5]; rfl⟩
    · unfold Coo.square Coo.ofSize
      rw [cassert_true h]
      exact ⟨_, rfl, rfl, fun i j => by simp [Coo.coef, tripleCoef]⟩
    · unfold Lil.square Lil.ofSize
      rw [cassert_true h, mkVec_int h]
      refine ⟨_, rfl, rfl, fun i j => ?_⟩
      unfold Lil.coef
      by_cases hi : 0 ≤ i ∧ i < n
      · rw [rd_int hi.1 (by simp; omega)]
        simp
      · rw [rd_oob (by simp; omega)]
    · unfold Coo.reserve
      rw [cassert_true h]; rfl
  · intro h
    have h' : ¬ n ≥ 0 := by omega
    unfold Csr.square Csr.zero Coo.square Coo.ofSize Lil.square Lil.ofSize Coo.reserve
    rw [cassert_false h']
    exact ⟨rfl, rfl, rfl, rfl⟩

/-- **C118.**  `GetSubVector(indices)` returns the named elements; a position outside the vector is rejected. -/
theorem C118_getSubVector [Zero α] (x : List α) (indices : List Int) :
    ((∀ k ∈ indices, 0 ≤ k ∧ k < x.length) →
      ∃ y, Vec.getSubVectorNew x indices = .ok y ∧ VecIs y indices.length (fun i => vecAt x (vecAt indices i))) ∧
    ((∃ k ∈ indices, ¬ (0 ≤ k ∧ k < x.length)) → Vec.getSubVectorNew x indices = .error .assertFail) := by
  unfold Vec.getSubVectorNew
  rw [mkVec_int (by omega), ok_bind]
  exact ⟨C32_getSubVector x indices _, C32_getSubVector_rejects x indices _⟩

/-- C118 on a case: a 2 by 3 matrix made 3 by 3 with the value 9, its columns and rows, and named elements of a vector. -/
example : (⟨2, 3, [1, 2, 3, 4, 5, 6]⟩ : Dense Int).WF ∧
    (⟨2, 3, [1, 2, 3, 4, 5, 6]⟩ : Dense Int).setSizeVal 3 3 9 = .ok ⟨3, 3, [1, 2, 3, 4, 5, 6, 9, 9, 9]⟩ ∧
    (⟨2, 3, [1, 2, 3, 4, 5, 6]⟩ : Dense Int).getColNew 1 = .ok [3, 4] ∧
    (⟨2, 3, [1, 2, 3, 4, 5, 6]⟩ : Dense Int).getRowNew 1 = .ok [2, 4, 6] ∧
    (⟨2, 3, [1, 2, 3, 4, 5, 6]⟩ : Dense Int).getColAssign 2 [0, 0] = .ok [5, 6] ∧
    (⟨2, 3, [1, 2, 3, 4, 5, 6]⟩ : Dense Int).copyData [7] = .ok [1, 2, 3, 4, 5, 6] ∧
    Vec.getSubVectorNew [10, 20, (30 : Int)] [2, 0, 2] = .ok [30, 10, 30] := by
  refine ⟨⟨by decide, by decide, by decide⟩, by decide +kernel, by decide +kernel, by decide +kernel, by decide +kernel, by decide +kernel,
    by decide +kernel⟩

end Linalg
