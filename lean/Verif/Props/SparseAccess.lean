import Verif.Proof.Csr

/-!
# Row access of a sparse matrix (C72)
-/

namespace Linalg
open Cpp

variable {α : Type}

theorem Csr.slice_map_flatten {β γ : Type} (g : β → γ) (rs : List (List β)) (k : Nat) (h : k < rs.length) :
    Csr.slice (rs.flatten.map g) (((rs.take k).flatten.length : Nat) : Int)
      (((rs.take k).flatten.length + rs[k].length : Nat) : Int) = .ok (rs[k].map g) := by
  have hl : (rs.take k).flatten.length + rs[k].length ≤ rs.flatten.length := by
    rw [← take_succ_flatten_length rs k h]
    exact ((List.take_sublist _ _).flatten).length_le
  unfold Csr.slice
  rw [if_pos ⟨by positivity, by push_cast; omega, by rw [List.length_map _]; exact_mod_cast hl⟩]
  rw [show ((((rs.take k).flatten.length + rs[k].length : Nat) : Int) - (((rs.take k).flatten.length : Nat) : Int)).toNat
    = rs[k].length by omega, Int.toNat_natCast, ← List.map_drop, ← List.map_take, flatten_drop_take rs k h]

/-- **C72.**  `RowSize(i)`, `GetIndices(i)` and `GetData(i)` are the number, the columns and the values of the entries stored
in row `i`, in storage order. -/
theorem C72_row (A : Csr α) (hA : A.WF) (i : Int) (h0 : 0 ≤ i) (h1 : i < A.rows) :
    A.rowSize i = .ok ((A.row i).length : Int) ∧ A.getIndices i = .ok ((A.row i).map Prod.fst) ∧
    A.getData i = .ok ((A.row i).map Prod.snd) := by
  obtain ⟨n, rs, hn, hrs, rfl⟩ := hA.exists_rows
  obtain ⟨k, rfl⟩ : ∃ k : Nat, i = k := ⟨i.toNat, by omega⟩
  have hk : k < rs.length := by
    have : ((k : Nat) : Int) < (rs.length : Int) := h1
    omega
  have e1 : rd (Csr.ofRows n rs).indptr (k : Int) = _ := rd_ptrs rs k hk.le
  have e2 : rd (Csr.ofRows n rs).indptr ((k : Int) + 1) = _ := rd_ptrs_succ rs k hk
  rw [Csr.row_ofRows n rs k hk]
  refine ⟨?_, ?_, ?_⟩
  · unfold Csr.rowSize
    rw [cassert_true ⟨h0, h1⟩, ok_bind, e2, ok_bind, e1, ok_bind]
    congr 1
    push_cast
    omega
  · unfold Csr.getIndices
    rw [cassert_true ⟨h0, h1⟩, ok_bind, e1, ok_bind, e2, ok_bind]
    exact Csr.slice_map_flatten Prod.fst rs k hk
  · unfold Csr.getData
    rw [cassert_true ⟨h0, h1⟩, ok_bind, e1, ok_bind, e2, ok_bind]
    exact Csr.slice_map_flatten Prod.snd rs k hk

/-- **C72.**  Other row numbers are rejected. -/
theorem C72_rejects (A : Csr α) (i : Int) (h : i < 0 ∨ A.rows ≤ i) :
    A.rowSize i = .error .assertFail ∧ A.getIndices i = .error .assertFail ∧ A.getData i = .error .assertFail := by
  unfold Csr.rowSize Csr.getIndices Csr.getData
  rw [cassert_false (by omega)]
  exact ⟨rfl, rfl, rfl⟩

/-- **C72.**  The row sizes add up to `nnz()`. -/
theorem C72_nnz (A : Csr α) (hA : A.WF) :
    ((((List.range A.rows.toNat).map (fun i : Nat => (A.row (i : Int)).length)).sum : Nat) : Int) = A.nnz := by
  obtain ⟨n, rs, hn, hrs, rfl⟩ := hA.exists_rows
  have hr : (Csr.ofRows n rs).rows.toNat = rs.length := by simp [Csr.ofRows]
  have hl : (Csr.ofRows n rs).nnz = ((rs.map List.length).sum : Nat) := by
    unfold Csr.nnz
    simp [Csr.ofRows, List.length_flatten, Function.comp_def]
  rw [hr, hl]
  congr 2
  refine List.ext_getElem (by simp) ?_
  intro k h1 h2
  simp only [List.length_map, List.length_range] at h1
  simp only [List.getElem_map, List.getElem_range]
  rw [Csr.row_ofRows n rs k h1]

/-- C72: the middle row is empty. -/
example : ∃ A : Csr Int, A.WF ∧ A.rows = 3 ∧ A.rowSize 0 = .ok 2 ∧ A.getIndices 0 = .ok [2, 0] ∧ A.getData 2 = .ok [7] ∧
    A.rowSize 1 = .ok 0 :=
  ⟨⟨3, 3, [0, 2, 2, 3], [2, 0, 1], [5, 6, 7]⟩, by decide, rfl, by decide, by decide, by decide, by decide⟩

end Linalg
