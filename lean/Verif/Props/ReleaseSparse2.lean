import Verif.Model.ReleaseSparse2
import Verif.Props.ReleaseSparse
import Verif.Props.SparseSub
import Verif.Props.SparseAccess

/-! # C143: row access, submatrices and eliminations of sparse matrices without assertions -/

namespace Linalg
open Cpp

variable {α : Type}

theorem Rel.getSubMatrixMarker_debug [Zero α] (A : Csr α) (r c m : List Int) : Rel.getSubMatrixMarker .debug A r c m = A.getSubMatrixMarker r c m := by
  unfold Rel.getSubMatrixMarker Csr.getSubMatrixMarker
  simp only [Rel.ofArrays_debug]
  rfl

theorem Rel.getSubMatrix_debug [Zero α] (A : Csr α) (r c : List Int) : Rel.getSubMatrix .debug A r c = A.getSubMatrix r c := by
  unfold Rel.getSubMatrix Csr.getSubMatrix
  simp only [Rel.getSubMatrixMarker_debug]

/-- **C143.**  With assertions the functions are those of the other models. -/
theorem C143_debug :
    (∀ (A : Csr α) (i : Int), Rel.getIndices .debug A i = A.getIndices i ∧ Rel.getData .debug A i = A.getData i ∧
      Rel.getIndicesView .debug A i = A.getIndicesView i) ∧
    (∀ [Add α] (A : Csr α) (v : α), Rel.addDiagVal .debug A v = A.addDiagVal v) ∧
    (∀ [Zero α] (A : Csr α) (r c m : List Int), Rel.getSubMatrixMarker .debug A r c m = A.getSubMatrixMarker r c m ∧
      Rel.getSubMatrix .debug A r c = A.getSubMatrix r c) ∧
    (∀ [Zero α] [One α] (A : Csr α) (k : Int) (m : List Bool), Rel.eliminateRowCol .debug A k = A.eliminateRowCol k ∧
      Rel.eliminateRowColMarker .debug A m = A.eliminateRowColMarker m) ∧
    ∀ [Zero α] (A : Csr α) (m : List Bool), Rel.eliminateColMarker .debug A m = A.eliminateColMarker m :=
  ⟨fun _ _ => ⟨rfl, rfl, rfl⟩, fun _ _ => rfl, fun A r c m => ⟨Rel.getSubMatrixMarker_debug A r c m, Rel.getSubMatrix_debug A r c⟩,
    fun _ _ _ => ⟨rfl, rfl⟩, fun _ _ => rfl⟩

theorem Refines.getSubMatrixMarker [Zero α] (A : Csr α) (r c m : List Int) :
    Refines (Rel.getSubMatrixMarker .debug A r c m) (Rel.getSubMatrixMarker .release A r c m) :=
  (Refines.assert _).bind fun _ => (Refines.refl _).bind fun _ => (Refines.refl _).bind fun _ =>
    (Refines.forUp fun _ _ => (Refines.refl _).bind fun _ => (Refines.assert _).bind fun _ => Refines.refl _).bind fun _ => (Refines.refl _).bind fun _ =>
    (Refines.refl _).bind fun _ => (Refines.refl _).bind fun _ => (Refines.refl _).bind fun _ => (Refines.ofArrays _ _ _ _ _).bind fun _ => Refines.refl _

/-- **C143.**  A call that passes the assertions gives the same result when they are compiled away. -/
theorem C143_same :
    (∀ (A : Csr α) (i : Int), Refines (A.getIndices i) (Rel.getIndices .release A i) ∧ Refines (A.getData i) (Rel.getData .release A i) ∧
      Refines (A.getIndicesView i) (Rel.getIndicesView .release A i)) ∧
    (∀ [Add α] (A : Csr α) (v : α), Refines (A.addDiagVal v) (Rel.addDiagVal .release A v)) ∧
    (∀ [Zero α] (A : Csr α) (r c m : List Int), Refines (A.getSubMatrixMarker r c m) (Rel.getSubMatrixMarker .release A r c m) ∧
      Refines (A.getSubMatrix r c) (Rel.getSubMatrix .release A r c)) ∧
    (∀ [Zero α] [One α] (A : Csr α) (k : Int) (m : List Bool), Refines (A.eliminateRowCol k) (Rel.eliminateRowCol .release A k) ∧
      Refines (A.eliminateRowColMarker m) (Rel.eliminateRowColMarker .release A m)) ∧
    ∀ [Zero α] (A : Csr α) (m : List Bool), Refines (A.eliminateColMarker m) (Rel.eliminateColMarker .release A m) := by
  refine ⟨fun A i => ⟨?_, ?_, ?_⟩, fun A v => ?_, fun A r c m => ⟨?_, ?_⟩, fun A k m => ⟨?_, ?_⟩, fun A m => ?_⟩
  · exact (Refines.assert _).bind fun _ => Refines.refl _
  · exact (Refines.assert _).bind fun _ => Refines.refl _
  · exact (Refines.assert _).bind fun _ => (Refines.refl _).bind fun _ => (Refines.refl _).bind fun _ => (Refines.assert _).bind fun _ => Refines.refl _
  · exact (Refines.assert _).bind fun _ => Refines.refl _
  · rw [← Rel.getSubMatrixMarker_debug]
    exact Refines.getSubMatrixMarker A r c m
  · rw [← Rel.getSubMatrix_debug]
    exact (Refines.refl _).bind fun _ => (Refines.getSubMatrixMarker A r c _).bind fun _ => Refines.refl _
  · exact (Refines.assert _).bind fun _ => (Refines.assert _).bind fun _ => (Refines.assert _).bind fun _ => Refines.refl _
  · exact (Refines.assert _).bind fun _ => (Refines.assert _).bind fun _ => Refines.refl _
  · exact (Refines.assert _).bind fun _ => Refines.refl _

/-- **C143.**  `GetIndices(row)`, `GetIndicesView(row)` and `GetData(row)`: every row number outside the matrix reads outside the row pointers. -/
theorem C143_row (A : Csr α) (hA : A.WF) (i : Int) :
    (0 ≤ i → i < A.rows → Rel.getIndices .release A i = .ok ((A.row i).map Prod.fst) ∧ Rel.getData .release A i = .ok ((A.row i).map Prod.snd)) ∧
    (i < 0 ∨ A.rows ≤ i → Rel.getIndices .release A i = .error .outOfBounds ∧ Rel.getData .release A i = .error .outOfBounds ∧
      Rel.getIndicesView .release A i = .error .outOfBounds) := by
  constructor
  · intro h0 h1
    obtain ⟨-, h2, h3⟩ := C72_row A hA i h0 h1
    exact ⟨(C143_same.1 A i).1 _ h2, (C143_same.1 A i).2.1 _ h3⟩
  · intro h
    have hlen : (A.indptr.length : Int) = A.rows + 1 := by
      obtain ⟨n, rs, hn, hrs, rfl⟩ := hA.exists_rows
      simp [Csr.ofRows, ptrs]
    have key : ∀ {β : Type} (f : Int → Int → Res β), (rd A.indptr i >>= fun s => rd A.indptr (i + 1) >>= fun e => f s e) = .error .outOfBounds := by
      intro β f
      by_cases h1 : i = A.rows
      · have := hA.rows_nonneg
        rw [rd_int (by omega) (by omega), ok_bind, rd_oob (by omega)]
        rfl
      · rw [rd_oob (by omega)]
        rfl
    exact ⟨key _, key _, key _⟩

/-- **C143.**  `AddDiag(val)` of a matrix that need not be square: `val` is added to every entry stored on the diagonal. -/
theorem C143_addDiagVal [Add α] (A : Csr α) (hA : A.WF) (val : α) :
    ∃ B, Rel.addDiagVal .release A val = .ok B ∧ B.WF ∧ A.UpdatedBy B (fun i j v => if j = i then v + val else v) := by
  obtain ⟨n, rs, hn, hrs, rfl⟩ := hA.exists_rows
  unfold Rel.addDiagVal
  rw [show Build.release.assert ((Csr.ofRows n rs).rows = (Csr.ofRows n rs).cols) = .ok () from rfl, ok_bind]
  refine upd_ofRows hn hrs _ (fun i e => if e.1 = i then e.2 + val else e.2) ?_
  intro t p ht hp hi dd hdd hv
  simp only [hv, hi, ok_bind]
  by_cases e : t.2.1 = t.1
  · simp only [e, if_true]
    exact wr_nat (by omega)
  · simp only [e, if_false]; rw [set_getElem_self dd p _ hv]

/-- **C143.**  `EliminateRowCol(index)` with any index works: entries stored in that row or column become 1 on the diagonal and 0 elsewhere, so an index
outside the matrix changes nothing. -/
theorem C143_eliminateRowCol [Zero α] [One α] (A : Csr α) (hA : A.WF) (index : Int) :
    ∃ B, Rel.eliminateRowCol .release A index = .ok B ∧ B.WF ∧
      A.UpdatedBy B (fun i j v => if i = index ∨ j = index then (if i = j then 1 else 0) else v) := by
  obtain ⟨n, rs, hn, hrs, rfl⟩ := hA.exists_rows
  unfold Rel.eliminateRowCol
  rw [show Build.release.assert (index ≥ 0) = .ok () from rfl, ok_bind, show Build.release.assert (index < (Csr.ofRows n rs).rows) = .ok () from rfl, ok_bind,
    show Build.release.assert (index < (Csr.ofRows n rs).cols) = .ok () from rfl, ok_bind]
  refine upd_ofRows hn hrs _ (fun i e => if i = index ∨ e.1 = index then (if i = e.1 then 1 else 0) else e.2) ?_
  intro t p ht hp hi d hd hv
  rw [hi]
  simp only [ok_bind]
  by_cases e : t.1 = index ∨ t.2.1 = index
  · simp only [e, if_true]
    rw [wr_nat (by omega)]
    simp only [eq_comm]
  · simp only [e, if_false]; rw [set_getElem_self d p _ hv]

/-- **C143.**  `EliminateCol(marker)`: it works exactly if the marker has an element for every stored column. -/
theorem C143_eliminateColMarker [Zero α] (A : Csr α) (hA : A.WF) (marker : List Bool) :
    ((∀ c ∈ A.indices, c < (marker.length : Int)) →
      ∃ B, Rel.eliminateColMarker .release A marker = .ok B ∧ B.WF ∧ A.UpdatedBy B (fun _ j v => if marked marker j then 0 else v)) ∧
    (¬ (∀ c ∈ A.indices, c < (marker.length : Int)) → Rel.eliminateColMarker .release A marker = .error .outOfBounds) := by
  obtain ⟨n, rs, hn, hrs, rfl⟩ := hA.exists_rows
  unfold Rel.eliminateColMarker
  rw [show Build.release.assert ((marker.length : Int) ≥ (Csr.ofRows n rs).cols) = .ok () from rfl, ok_bind]
  constructor
  · intro h
    refine upd_ofRows hn hrs _ (fun _ e => if marked marker e.1 then 0 else e.2) ?_
    intro t p ht hp hi d hd hv
    have hc := (triplesL_ok hrs t ht).2
    have hlt : t.2.1 < (marker.length : Int) := by
      obtain ⟨k, hk, h1, h2⟩ := mem_triplesL.mp ht
      exact h _ (mem_indices_ofRows.mpr ⟨_, List.getElem_mem hk, _, h2, rfl⟩)
    rw [hi]
    simp only [ok_bind]
    rw [rd_marker hc.1 hlt]
    simp only [ok_bind]
    by_cases e : marked marker t.2.1
    · simp only [e, decide_true, if_true]; exact wr_nat (by omega)
    · simp only [e, decide_false, if_false, Bool.false_eq_true]; rw [set_getElem_self d p _ hv]
  · intro h
    rw [updLoop_fails _ (fun t => t.2.1 < (marker.length : Int)) .outOfBounds ?_ ?_ (mem_triples_of_bad h)]
    · rfl
    · intro t p ht hp hi dd hdd hg
      have hc := (triplesL_ok hrs t ht).2
      simp only [hi, ok_bind]
      rw [rd_marker hc.1 hg, ok_bind]
      split
      · rw [wr_nat (by omega)]
        exact ⟨_, rfl, by simpa using hdd⟩
      · exact ⟨_, rfl, hdd⟩
    · intro t p ht hp hi dd hdd hg
      simp only [hi, ok_bind]
      rw [rd_oob (by omega)]
      rfl

/-- **C143.**  `EliminateRowCol(marker)` of a matrix that need not be square: it works exactly if the marker has an element for every row that stores
something and for every column stored in a row that is not marked. -/
theorem C143_eliminateRowColMarker [Zero α] [One α] (A : Csr α) (hA : A.WF) (marker : List Bool) :
    ((∀ i, ∀ e ∈ A.row i, i < (marker.length : Int) ∧ (marked marker i ∨ e.1 < (marker.length : Int))) →
      ∃ B, Rel.eliminateRowColMarker .release A marker = .ok B ∧ B.WF ∧
        A.UpdatedBy B (fun i j v => if marked marker i ∨ marked marker j then (if i = j then 1 else 0) else v)) ∧
    (¬ (∀ i, ∀ e ∈ A.row i, i < (marker.length : Int) ∧ (marked marker i ∨ e.1 < (marker.length : Int))) →
      Rel.eliminateRowColMarker .release A marker = .error .outOfBounds) := by
  obtain ⟨n, rs, hn, hrs, rfl⟩ := hA.exists_rows
  unfold Rel.eliminateRowColMarker
  rw [show Build.release.assert ((Csr.ofRows n rs).rows = (Csr.ofRows n rs).cols) = .ok () from rfl, ok_bind,
    show Build.release.assert ((marker.length : Int) ≥ (Csr.ofRows n rs).cols) = .ok () from rfl, ok_bind]
  constructor
  · intro h
    refine upd_ofRows hn hrs _ (fun i e => if marked marker i ∨ marked marker e.1 then (if i = e.1 then 1 else 0) else e.2) ?_
    intro t p ht hp hi d hd hv
    have hc := triplesL_ok hrs t ht
    obtain ⟨h1, h2⟩ := h t.1 t.2 (by
      obtain ⟨k, hk, h1, h2⟩ := mem_triplesL.mp ht
      rw [h1, Csr.row_ofRows _ rs k hk]
      exact h2)
    rw [hi]
    simp only [ok_bind]
    rw [rd_marker hc.1.1 h1]
    simp only [ok_bind]
    by_cases e1 : marked marker t.1
    · simp only [e1, decide_true, if_true, true_or]; exact wr_nat (by omega)
    · rw [rd_marker hc.2.1 (h2.resolve_left e1)]
      by_cases e2 : marked marker t.2.1
      · simp only [e1, e2, decide_false, decide_true, if_false, if_true, Bool.false_eq_true, or_true]
        exact wr_nat (by omega)
      · simp only [e1, e2, decide_false, if_false, Bool.false_eq_true, or_false]
        rw [set_getElem_self d p _ hv]
        rfl
  · intro h
    push Not at h
    obtain ⟨i, e, he, hb⟩ := h
    have i0 : 0 ≤ i := by
      by_contra hi
      rw [Csr.row_neg _ (by omega)] at he
      simp at he
    obtain ⟨q, rfl⟩ : ∃ q : Nat, i = q := ⟨i.toNat, by omega⟩
    have hq : q < rs.length := by
      by_contra hq
      rw [row_ofRows_getD _ rs i0, Int.toNat_natCast, List.getD_eq_getElem?_getD, List.getElem?_eq_none (by omega)] at he
      exact absurd he (by simp)
    rw [Csr.row_ofRows _ rs q hq] at he
    rw [updLoop_fails _ (fun t => t.1 < (marker.length : Int) ∧ (marked marker t.1 ∨ t.2.1 < (marker.length : Int))) .outOfBounds ?_ ?_
      ⟨((q : Int), e), mem_triplesL.mpr ⟨q, hq, rfl, he⟩, fun hh => by
        obtain ⟨h1, h2⟩ := hb hh.1
        exact hh.2.elim h1 (fun h3 => absurd h3 (by simp only; omega))⟩]
    · rfl
    · intro t p ht hp hi dd hdd hg
      have hc := triplesL_ok hrs t ht
      simp only [hi, ok_bind]
      rw [rd_marker hc.1.1 hg.1]
      rw [ok_bind]
      by_cases e1 : marked marker t.1
      · rw [if_pos (by simpa using e1), if_pos trivial, wr_nat (by omega)]
        exact ⟨_, rfl, by simpa using hdd⟩
      · rw [if_neg (by simpa using e1), rd_marker hc.2.1 (hg.2.resolve_left e1), ok_bind]
        split
        · rw [wr_nat (by omega)]
          exact ⟨_, rfl, by simpa using hdd⟩
        · exact ⟨_, rfl, hdd⟩
    · intro t p ht hp hi dd hdd hg
      have hc := triplesL_ok hrs t ht
      simp only [hi, ok_bind]
      by_cases h1 : t.1 < (marker.length : Int)
      · have h2 : ¬ marked marker t.1 ∧ ¬ t.2.1 < (marker.length : Int) := by
          constructor
          · intro h2; exact hg ⟨h1, Or.inl h2⟩
          · intro h2; exact hg ⟨h1, Or.inr h2⟩
        rw [rd_marker hc.1.1 h1, ok_bind, if_neg (by simpa using h2.1), rd_oob (by omega)]
        rfl
      · rw [rd_oob (by omega)]
        rfl

/-! ## Submatrices -/

/-- **C143.**  `GetSubMatrix(rows, cols, marker)` with a marker of any length full of `-1`: it works exactly if the selected columns and the columns stored in
the selected rows are positions of the marker and the selected rows are rows of the matrix.  The selected columns need not be columns of the matrix. -/
theorem C143_getSubMatrixMarker [Zero α] (A : Csr α) (hA : A.WF) (rows cols : List Int) (M : Nat) :
    ((∀ c ∈ cols, 0 ≤ c ∧ c < (M : Int)) ∧ (∀ r ∈ rows, 0 ≤ r ∧ r < A.rows) ∧ (∀ r ∈ rows, ∀ e ∈ A.row r, e.1 < (M : Int)) →
      ∃ S, Rel.getSubMatrixMarker .release A rows cols (List.replicate M (-1)) = .ok (S, List.replicate M (-1)) ∧ S.WF ∧ S.rows = rows.length ∧
        S.cols = cols.length ∧ ∀ (p : Nat) (hp : p < rows.length),
          S.row p = ((A.row rows[p]).filter (fun e => e.1 ∈ cols)).map (fun e => (((lastPos cols e.1 : Nat) : Int), e.2))) ∧
    (¬ ((∀ c ∈ cols, 0 ≤ c ∧ c < (M : Int)) ∧ (∀ r ∈ rows, 0 ≤ r ∧ r < A.rows) ∧ (∀ r ∈ rows, ∀ e ∈ A.row r, e.1 < (M : Int))) →
      Rel.getSubMatrixMarker .release A rows cols (List.replicate M (-1)) = .error .outOfBounds) := by
  obtain ⟨n, rs, hn, hrs, rfl⟩ := hA.exists_rows
  have hrowsE : (Csr.ofRows n rs).rows = (rs.length : Int) := rfl
  constructor
  · rintro ⟨hc, hr, hs⟩
    have hsel : ∀ k (hk : k < rs.length), (k : Int) ∈ rows → ∀ e ∈ rs[k], 0 ≤ e.1 ∧ e.1 < (M : Int) := by
      intro k hk hkr e he
      refine ⟨(hrs _ (List.getElem_mem hk) e he).1, hs _ hkr e ?_⟩
      rw [Csr.row_ofRows n rs k hk]
      exact he
    refine ⟨_, (C143_same.2.2.1 (Csr.ofRows (M : Int) rs) rows cols _).1 _ (getSubMatrixMarker_sel rows cols M le_rfl hr hc hsel), ?_, by simp [Csr.ofRows], rfl, ?_⟩
    · refine Csr.wf_ofRows (by omega) ?_
      intro r hr e he
      obtain ⟨x, _, rfl⟩ := List.mem_map.mp hr
      obtain ⟨e', he', rfl⟩ := List.mem_map.mp he
      have := (List.mem_filter.mp he').2
      have := lastPos_lt (by simpa using this : e'.1 ∈ cols)
      simp only; omega
    · intro p hp
      rw [Csr.row_ofRows _ _ p (by simpa using hp)]
      simp only [List.getElem_map]
      rw [row_ofRows_getD n rs (hr _ (List.getElem_mem hp)).1]
      rfl
  · intro h
    unfold Rel.getSubMatrixMarker
    rw [show Build.release.assert (((List.replicate M (-1 : Int)).length : Int) ≥ (Csr.ofRows n rs).cols) = .ok () from rfl, ok_bind]
    dsimp only
    rw [wr_int le_rfl (by simp), ok_bind]
    by_cases hc : ∀ c ∈ cols, 0 ≤ c ∧ c < (M : Int)
    · rw [marker_pass M cols hc, ok_bind]
      rw [forUp_fails (fun _ (st : Int × List Int) => st.2.length = rows.length + 1)
        (fun i => ∀ p (hp : p < rows.length), (p : Int) = i → (0 ≤ rows[p] ∧ rows[p] < (rs.length : Int)) ∧
          ∀ e ∈ (Csr.ofRows n rs).row rows[p], e.1 < (M : Int)) .outOfBounds (by simp) ?_ ?_ ?_]
      · rfl
      · intro i st i0 i1 hl hg
        obtain ⟨p, rfl⟩ : ∃ p : Nat, i = p := ⟨i.toNat, by omega⟩
        have hp : p < rows.length := by omega
        obtain ⟨⟨g0, g1⟩, g2⟩ := hg p hp rfl
        rw [rd_nat hp, ok_bind]
        obtain ⟨k, hk⟩ : ∃ k : Nat, rows[p] = k := ⟨rows[p].toNat, by omega⟩
        rw [hk] at g1 g2 ⊢
        have hk' : k < rs.length := by omega
        rw [Csr.row_ofRows n rs k hk'] at g2
        rw [show Build.release.assert ((k : Int) < (Csr.ofRows n rs).rows) = .ok () from rfl, ok_bind,
          count_row cols k hk' (fun e he => ⟨(hrs _ (List.getElem_mem hk') e he).1, g2 e he⟩), ok_bind, wr_int (by omega) (by omega), ok_bind]
        exact ⟨_, rfl, by simpa using hl⟩
      · intro i st i0 i1 hl hg
        push Not at hg
        obtain ⟨p, hp, rfl, hb⟩ := hg
        rw [rd_nat hp, ok_bind, show Build.release.assert (rows[p] < (Csr.ofRows n rs).rows) = .ok () from rfl, ok_bind]
        by_cases hr : 0 ≤ rows[p] ∧ rows[p] < (rs.length : Int)
        · obtain ⟨e, he, hM⟩ := hb hr
          obtain ⟨k, hk⟩ : ∃ k : Nat, rows[p] = k := ⟨rows[p].toNat, by omega⟩
          rw [hk] at hr he ⊢
          have hk' : k < rs.length := by omega
          rw [Csr.row_ofRows n rs k hk'] at he
          rw [Csr.forRow_ofRows n rs k hk' _ _ (fun e c0 => do
            let m ← rd (mkMarker M cols) e.1
            if m ≠ -1 then .ok (c0 + 1) else .ok c0) (by
              intro m hm s
              rw [rd_indices_ofRows n rs k m hk' hm]
              rfl)]
          rw [foldlM_fails (fun _ => True) (fun e => e.1 < (M : Int)) .outOfBounds trivial ?_ ?_ ⟨e, he, by omega⟩]
          · rfl
          · intro s e he _ hlt
            rw [rd_mkMarker (hrs _ (List.getElem_mem hk') e he).1 hlt, ok_bind]
            split <;> exact ⟨_, rfl, trivial⟩
          · intro s e he _ hlt
            rw [rd_oob (by simp only [mkMarker, List.length_map, List.length_range]; omega)]
            rfl
        · rw [forRow_oob (by omega)]
          rfl
      · by_contra hall
        push Not at hall
        apply h
        have hget : ∀ r ∈ rows, (0 ≤ r ∧ r < (rs.length : Int)) ∧ ∀ e ∈ (Csr.ofRows n rs).row r, e.1 < (M : Int) := by
          intro r hr
          obtain ⟨p, hp, rfl⟩ := List.getElem_of_mem hr
          exact hall p (by omega) (by omega) p hp rfl
        exact ⟨hc, fun r hr => (hget r hr).1, fun r hr => (hget r hr).2⟩
    · push Not at hc
      obtain ⟨c, hcm, hcb⟩ := hc
      obtain ⟨p, hp, rfl⟩ := List.getElem_of_mem hcm
      rw [forUp_fails (fun _ (m : List Int) => m.length = M) (fun i => ∀ q (hq : q < cols.length), (q : Int) = i → 0 ≤ cols[q] ∧ cols[q] < (M : Int))
        .outOfBounds (by simp) ?_ ?_ ⟨p, by omega, by omega, fun hg => by
          have := hg p hp rfl
          have := hcb this.1
          omega⟩]
      · rfl
      · intro i m i0 i1 hl hg
        obtain ⟨q, rfl⟩ : ∃ q : Nat, i = q := ⟨i.toNat, by omega⟩
        have hq : q < cols.length := by omega
        have := hg q hq rfl
        rw [rd_nat hq, ok_bind, wr_int this.1 (by omega)]
        exact ⟨_, rfl, by simpa using hl⟩
      · intro i m i0 i1 hl hg
        push Not at hg
        obtain ⟨q, hq, rfl, hb⟩ := hg
        rw [rd_nat hq, ok_bind, wr_oob]
        by_cases h0 : 0 ≤ cols[q]
        · have := hb h0; omega
        · omega

/-- **C143.**  `GetSubMatrix(rows, cols)`: it works exactly if the selected rows and columns are rows and columns of the matrix. -/
theorem C143_getSubMatrix [Zero α] (A : Csr α) (hA : A.WF) (rows cols : List Int) :
    ((∀ c ∈ cols, 0 ≤ c ∧ c < A.cols) ∧ (∀ r ∈ rows, 0 ≤ r ∧ r < A.rows) → ∃ S, A.getSubMatrix rows cols = .ok S ∧
      Rel.getSubMatrix .release A rows cols = .ok S) ∧
    (¬ ((∀ c ∈ cols, 0 ≤ c ∧ c < A.cols) ∧ (∀ r ∈ rows, 0 ≤ r ∧ r < A.rows)) → Rel.getSubMatrix .release A rows cols = .error .outOfBounds) := by
  constructor
  · rintro ⟨hc, hr⟩
    obtain ⟨S, -, h1, -⟩ := C07_repeats A hA rows cols A.cols.toNat (by have := hA.cols_nonneg; omega) hr hc
    exact ⟨S, h1, (C143_same.2.2.1 A rows cols []).2 S h1⟩
  · intro h
    have h0 := hA.cols_nonneg
    obtain ⟨N, hN⟩ : ∃ N : Nat, A.cols = N := ⟨A.cols.toNat, by omega⟩
    unfold Rel.getSubMatrix
    rw [hN, mkVec_nat, ok_bind, (C143_getSubMatrixMarker A hA rows cols N).2]
    · rfl
    · rw [← hN]
      exact fun hh => h ⟨hh.1, hh.2.1⟩

/-! ## Concrete cases -/

/-- Row access. -/
example : ∃ A : Csr Int, A.WF ∧ Rel.getIndices .release A 1 = .ok [0, 2] ∧ Rel.getData .release A 1 = .ok [4, 5] ∧
    Rel.getIndices .release A 2 = .error .outOfBounds ∧ Rel.getIndicesView .release A (-1) = .error .outOfBounds ∧
    Rel.getIndicesView .debug A (-1) = .error .assertFail :=
  ⟨⟨2, 3, [0, 1, 3], [1, 0, 2], [3, 4, 5]⟩, by decide, by decide, by decide, by decide, by decide, by decide⟩

/-- `AddDiag` and `EliminateRowCol` of a 2 x 3 matrix; an index outside changes nothing. -/
example : ∃ A : Csr Int, A.WF ∧ Rel.addDiagVal .release A 7 = .ok ⟨2, 3, [0, 2, 3], [0, 1, 1], [10, 4, 12]⟩ ∧
    Rel.addDiagVal .debug A 7 = .error .assertFail ∧ Rel.eliminateRowCol .release A 1 = .ok ⟨2, 3, [0, 2, 3], [0, 1, 1], [3, 0, 1]⟩ ∧
    Rel.eliminateRowCol .release A 5 = .ok A ∧ Rel.eliminateRowCol .debug A 5 = .error .assertFail :=
  ⟨⟨2, 3, [0, 2, 3], [0, 1, 1], [3, 4, 5]⟩, by decide, by decide, by decide, by decide, by decide, by decide⟩

/-- Markers that are too short: one element is enough for a matrix whose first row is marked and whose other rows are empty. -/
example : ∃ A : Csr Int, A.WF ∧ Rel.eliminateRowColMarker .release A [true] = .ok ⟨2, 3, [0, 2, 2], [0, 2], [1, 0]⟩ ∧
    Rel.eliminateRowColMarker .release A [false] = .error .outOfBounds ∧ Rel.eliminateColMarker .release A [true] = .error .outOfBounds ∧
    Rel.eliminateColMarker .release A [true, false, false] = .ok ⟨2, 3, [0, 2, 2], [0, 2], [0, 4]⟩ ∧
    Rel.eliminateColMarker .release { A with indices := [0, 1] } [true, false] = .ok ⟨2, 3, [0, 2, 2], [0, 1], [0, 4]⟩ :=
  ⟨⟨2, 3, [0, 2, 2], [0, 2], [3, 4]⟩, by decide, by decide, by decide, by decide, by decide, by decide⟩

/-- A marker shorter than a row that is not selected, a column outside the matrix but inside the marker, and a row outside. -/
example : ∃ A : Csr Int, A.WF ∧ Rel.getSubMatrixMarker .release A [0] [1] [-1, -1] = .ok (⟨1, 1, [0, 1], [0], [4]⟩, [-1, -1]) ∧
    Rel.getSubMatrixMarker .debug A [0] [1] [-1, -1] = .error .assertFail ∧ Rel.getSubMatrixMarker .release A [1] [1] [-1, -1] = .error .outOfBounds ∧
    Rel.getSubMatrixMarker .release A [0] [3, 0] [-1, -1, -1, -1] = .ok (⟨1, 2, [0, 1], [1], [3]⟩, [-1, -1, -1, -1]) ∧
    Rel.getSubMatrix .release A [2] [0] = .error .outOfBounds ∧ Rel.getSubMatrix .release A [0] [3] = .error .outOfBounds :=
  ⟨⟨2, 3, [0, 2, 3], [0, 1, 2], [3, 4, 5]⟩, by decide, by decide, by decide, by decide, by decide, by decide, by decide⟩

end Linalg
