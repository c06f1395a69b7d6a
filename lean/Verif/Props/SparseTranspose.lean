import Verif.Proof.Transpose

/-!
# Transpose of a sparse matrix (C03)
-/

namespace Linalg
open Cpp

variable {α R : Type}

/-- **C03.**  On a well-formed matrix `Transpose()` returns normally with a well-formed matrix of exchanged
dimensions, whose row `j` holds exactly the stored entries of column `j` (duplicates included), in row order. -/
theorem C03_transpose [Zero α] (A : Csr α) (hA : A.WF) :
    ∃ B, A.transpose = .ok B ∧ B.WF ∧ B.rows = A.cols ∧ B.cols = A.rows ∧ B.nnz = A.nnz ∧
      ∀ j, 0 ≤ j → j < A.cols → B.row j = A.column j := by
  obtain ⟨n, rs, hn, hrs, rfl⟩ := hA.exists_rows
  obtain ⟨N, rfl⟩ : ∃ N : Nat, n = (N : Int) := ⟨n.toNat, by omega⟩
  refine ⟨_, transpose_ofRows N rs hrs, Csr.wf_ofRows (by omega) (trRows_ok N hrs),
    by simp [Csr.ofRows], rfl, ?_, ?_⟩
  · simp only [Csr.nnz, Csr.ofRows, List.length_map]
    rw [trRows_flatten_length' _ N (fun t ht => (triplesL_ok hrs t ht).2), triplesL_length]
  · intro j h0 h1
    have h1' : j < (N : Int) := h1
    rw [column_ofRows, row_ofRows_getD _ _ h0, List.getD_eq_getElem?_getD,
      List.getElem?_eq_getElem (by simp; omega), getElem_trRows]
    simp only [Option.getD_some]
    congr 1; omega

/-- **C03.**  The coefficients are exchanged, at every pair of indices. -/
theorem C03_transpose_coef [AddMonoid R] (A : Csr R) (hA : A.WF) :
    ∃ B, A.transpose = .ok B ∧ ∀ i j, B.coef j i = A.coef i j := by
  obtain ⟨B, hB, hBwf, hr, hc, -, hrow⟩ := C03_transpose A hA
  refine ⟨B, hB, ?_⟩
  intro i j
  by_cases hj : 0 ≤ j ∧ j < A.cols
  · by_cases hi : 0 ≤ i ∧ i < A.rows
    · rw [Csr.coef_eq, hrow j hj.1 hj.2]
      obtain ⟨n, rs, hn, hrs, rfl⟩ := hA.exists_rows
      rw [column_ofRows, rowCoef_bucket rs hi.1 hi.2, coef_ofRows_getD n rs hi.1]
    · rw [Csr.coef_of_not_row hA hi, Csr.coef_of_not_col hBwf (by rw [hc]; exact hi)]
  · rw [Csr.coef_of_not_col hA hj, Csr.coef_of_not_row hBwf (by rw [hr]; exact hj)]

/-- **C03.**  Every row of the transpose has its column indices in nondecreasing order. -/
theorem C03_transpose_sorted [Zero α] (A : Csr α) (hA : A.WF) :
    ∃ B, A.transpose = .ok B ∧ ∀ j, (B.row j).Pairwise (fun a b => a.1 ≤ b.1) := by
  obtain ⟨B, hB, hBwf, hr, hc, -, hrow⟩ := C03_transpose A hA
  refine ⟨B, hB, ?_⟩
  intro j
  by_cases hj : 0 ≤ j ∧ j < A.cols
  · rw [hrow j hj.1 hj.2]
    unfold Csr.column
    rw [List.pairwise_flatMap]
    constructor
    · intro i _
      rw [List.pairwise_map]
      exact List.pairwise_iff_forall_sublist.mpr (fun _ => le_refl _)
    · simp only [iota, List.pairwise_map]
      refine List.pairwise_lt_range.imp ?_
      intro a b hab x hx y hy
      simp only [List.mem_map] at hx hy
      obtain ⟨_, -, rfl⟩ := hx
      obtain ⟨_, -, rfl⟩ := hy
      simp only [Int.ofNat_eq_natCast]; omega
  · by_cases h0 : 0 ≤ j
    · rw [B.row_ge hBwf.indptr_len (by rw [hr]; omega)]; exact List.Pairwise.nil
    · rw [Csr.row_neg B (by omega)]; exact List.Pairwise.nil

/-- **C03.**  Transposing twice gives back the matrix with each row's entries reordered by column. -/
theorem C03_transpose_twice [Zero α] (A : Csr α) (hA : A.WF) :
    ∃ B C, A.transpose = .ok B ∧ B.transpose = .ok C ∧ C.WF ∧ C.rows = A.rows ∧ C.cols = A.cols ∧
      ∀ i, (C.row i).Perm (A.row i) ∧ (C.row i).Pairwise (fun a b => a.1 ≤ b.1) := by
  obtain ⟨n, rs, hn, hrs, rfl⟩ := hA.exists_rows
  obtain ⟨N, rfl⟩ : ∃ N : Nat, n = (N : Int) := ⟨n.toNat, by omega⟩
  have h1 := transpose_ofRows N rs hrs
  have h2 := transpose_ofRows rs.length _ (trRows_ok N hrs)
  rw [length_trRows, trRows_trRows] at h2
  have hok : ∀ r ∈ rs.map (bsort N), ∀ e ∈ r, 0 ≤ e.1 ∧ e.1 < (N : Int) := by
    intro r hr e he
    obtain ⟨r', hr', rfl⟩ := List.mem_map.mp hr
    exact hrs r' hr' e ((bsort_perm N r' (hrs r' hr')).mem_iff.mp he)
  refine ⟨_, _, h1, h2, Csr.wf_ofRows (by omega) hok, by simp [Csr.ofRows], rfl, ?_⟩
  intro i
  by_cases h0 : 0 ≤ i
  · rw [row_ofRows_getD _ _ h0, row_ofRows_getD _ _ h0]
    by_cases hi : i.toNat < rs.length
    · rw [List.getD_eq_getElem?_getD, List.getD_eq_getElem?_getD, List.getElem?_map,
        List.getElem?_eq_getElem hi]
      exact ⟨bsort_perm N _ (hrs _ (List.getElem_mem hi)), bsort_sorted N _⟩
    · rw [List.getD_eq_getElem?_getD, List.getD_eq_getElem?_getD, List.getElem?_map,
        List.getElem?_eq_none (by omega)]
      simp
  · rw [Csr.row_neg _ (by omega), Csr.row_neg _ (by omega)]; exact ⟨List.Perm.nil, List.Pairwise.nil⟩

/-- **C03.**  If the rows are sorted by column, transposing twice gives back the identical arrays. -/
theorem C03_transpose_involutive [Zero α] (A : Csr α) (hA : A.WF)
    (hs : ∀ i, (A.row i).Pairwise (fun a b => a.1 ≤ b.1)) :
    ∃ B, A.transpose = .ok B ∧ B.transpose = .ok A := by
  obtain ⟨n, rs, hn, hrs, rfl⟩ := hA.exists_rows
  obtain ⟨N, rfl⟩ : ∃ N : Nat, n = (N : Int) := ⟨n.toNat, by omega⟩
  have h2 := transpose_ofRows rs.length _ (trRows_ok N hrs)
  rw [length_trRows, trRows_trRows] at h2
  refine ⟨_, transpose_ofRows N rs hrs, ?_⟩
  rw [h2]
  congr 2
  conv_rhs => rw [← List.map_id rs]
  apply List.map_congr_left
  intro r hr
  obtain ⟨k, hk, rfl⟩ := List.getElem_of_mem hr
  have := hs (k : Int)
  rw [row_ofRows_getD _ _ (by omega), List.getD_eq_getElem?_getD,
    List.getElem?_eq_getElem (by simpa using hk)] at this
  exact bsort_of_sorted N _ (hrs _ hr) (by simpa using this)

/-- A 2×3 matrix with an unsorted row and a duplicate position. -/
def exT : Csr Int := ⟨2, 3, [0, 3, 4], [2, 0, 2, 1], [5, 6, 7, 8]⟩

example : exT.WF ∧ exT.transpose = .ok ⟨3, 2, [0, 1, 2, 4], [0, 1, 0, 0], [6, 8, 5, 7]⟩ := by decide

end Linalg
