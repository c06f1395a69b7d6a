import Verif.Proof.Self
import Verif.Props.SparseUpdate

/-!
# C112: objects passed as their own argument or result

Which functions may be called with one object as both argument and result, and what the others leave there.
-/

namespace Linalg
open Cpp

variable {α : Type}

/-! ## Transpose -/

/-- **C112** `D.Transpose(D)` for a square matrix: the part on and above the diagonal is mirrored, what was below is lost. -/
theorem C112_transpose [Zero α] (D : Dense α) (h : D.WF) (hs : D.rows = D.cols) :
    ∃ E, D.transposeSelf = .ok E ∧ E.Is D.rows D.rows (fun i j => if j ≤ i then D.entry j i else D.entry i j) := by
  have e := h.eq_ofFn
  rw [← hs] at e
  have hr := h.rows_nonneg
  refine ⟨_, by rw [e]; exact Dense.transposeSelf_ofFn _ _, ?_⟩
  rw [e]
  have := Dense.is_ofFn D.rows.toNat D.rows.toNat (fun i j => if j ≤ i then D.entry j i else D.entry i j)
  rw [show ((D.rows.toNat : Nat) : Int) = D.rows by omega] at this
  refine Dense.Is.congr (by simpa [← e, hr] using this) ?_
  intro i j i0 i1 j0 j1
  simp only [Dense.ofFn_rows] at i1 j1
  rw [Dense.entry_ofFn i0 i1 j0 j1, Dense.entry_ofFn j0 j1 i0 i1]

/-- **C112** It is the transpose exactly for a symmetric matrix. -/
theorem C112_transpose_iff [Zero α] (D E : Dense α) (h : D.WF) (hs : D.rows = D.cols) (hE : D.transposeSelf = .ok E) :
    E.Is D.rows D.rows (fun i j => D.entry j i) ↔
      ∀ i j, 0 ≤ i → i < D.rows → 0 ≤ j → j < D.rows → D.entry i j = D.entry j i := by
  obtain ⟨E', h1, h2⟩ := C112_transpose D h hs
  obtain rfl : E = E' := by rw [hE] at h1; exact Except.ok.inj h1
  constructor
  · intro hT
    have key : ∀ i j, 0 ≤ i → i < D.rows → 0 ≤ j → j < D.rows → i ≤ j → D.entry i j = D.entry j i := by
      intro i j i0 i1 j0 j1 hij
      have a := h2.get_eq i j i0 i1 j0 j1
      rw [hT.get_eq i j i0 i1 j0 j1] at a
      have a := Except.ok.inj a
      by_cases hc : j ≤ i
      · obtain rfl : i = j := by omega
        rfl
      · rw [if_neg hc] at a; exact a.symm
    intro i j i0 i1 j0 j1
    by_cases hc : i ≤ j
    · exact key i j i0 i1 j0 j1 hc
    · exact (key j i j0 j1 i0 i1 (by omega)).symm
  · intro hsym
    refine h2.congr ?_
    intro i j i0 i1 j0 j1
    by_cases hc : j ≤ i
    · rw [if_pos hc]
    · rw [if_neg hc]; exact hsym i j i0 i1 j0 j1

/-- **C112** `D.Transpose(D)` stops on every matrix that has elements and is not square. -/
theorem C112_transpose_shape [Zero α] (D : Dense α) (hr : 0 < D.rows) (hc : 0 < D.cols) (hs : D.rows ≠ D.cols) :
    D.transposeSelf = .error .assertFail := by
  obtain ⟨E, h1, h2, h3, h4⟩ := Dense.setSize_wf D hc.le hr.le
  unfold Dense.transposeSelf
  rw [h1, ok_bind, h3]
  refine forUp_fails (fun _ (F : Dense α) => F.Sized D.cols D.rows) (fun i => D.rows ≤ D.cols ∧ i < D.rows) _ ⟨h2, h3, h4⟩ ?_ ?_ ?_
  · rintro i (F : Dense α) i0 i1 ⟨hF, f1, f2⟩ ⟨g1, g2⟩
    rw [f2]
    refine forUp_inv hr.le (fun _ (F : Dense α) => F.Sized D.cols D.rows) ⟨hF, f1, f2⟩ ?_
    rintro j F j0 j1 ⟨hF, f1, f2⟩
    obtain ⟨x, hx⟩ := Dense.get_some hF (i := i) (j := j) i0 (by omega) j0 (by omega)
    rw [hx, ok_bind]
    obtain ⟨G, g, gW, g1, g2⟩ := Dense.put_some hF x (i := j) (j := i) j0 (by omega) i0 (by omega)
    exact ⟨G, g, gW, by omega, by omega⟩
  · rintro i (F : Dense α) i0 i1 ⟨hF, f1, f2⟩ hb
    rw [f2]
    refine forUp_fails (fun _ (F : Dense α) => F.Sized D.cols D.rows) (fun j => j < D.cols ∧ i < D.rows) _ ⟨hF, f1, f2⟩ ?_ ?_ ?_
    · rintro j F j0 j1 ⟨hF, f1, f2⟩ ⟨g1, g2⟩
      obtain ⟨x, hx⟩ := Dense.get_some hF (i := i) (j := j) i0 (by omega) j0 (by omega)
      rw [hx, ok_bind]
      obtain ⟨G, g, gW, g1, g2⟩ := Dense.put_some hF x (i := j) (j := i) j0 (by omega) i0 (by omega)
      exact ⟨G, g, gW, by omega, by omega⟩
    · rintro j F j0 j1 ⟨hF, f1, f2⟩ hb
      obtain ⟨x, hx⟩ := Dense.get_some hF (i := i) (j := j) i0 (by omega) j0 (by omega)
      rw [hx, ok_bind]
      exact Dense.put_err (by omega)
    · by_cases hi : i < D.rows
      · exact ⟨D.cols, by omega, by omega, by omega⟩
      · exact ⟨0, by omega, by omega, by omega⟩
  · by_cases hle : D.rows ≤ D.cols
    · exact ⟨D.rows, by omega, by omega, by omega⟩
    · exact ⟨0, by omega, by omega, by omega⟩

example : ((⟨2, 2, [1, 3, 2, 4]⟩ : Dense Int).transposeSelf = .ok ⟨2, 2, [1, 2, 2, 4]⟩) ∧
    ((⟨2, 2, [1, 3, 2, 4]⟩ : Dense Int).transpose = .ok ⟨2, 2, [1, 2, 3, 4]⟩) ∧
    ((⟨1, 2, [1, 2]⟩ : Dense Int).transposeSelf = .error .assertFail) := by decide +kernel

/-! ## Parts of a matrix -/

/-- **C112** `D.GetSubMatrix(0, 0, end_i, end_j, D)` keeps the first `end_i * end_j` elements of the buffer: nothing is moved. -/
theorem C112_sub [Zero α] (D : Dense α) (h : D.WF) {ei ej : Int} (hi : 0 < ei) (hi' : ei ≤ D.rows) (hj : 0 < ej) (hj' : ej ≤ D.cols) :
    D.getSubMatrixSelf 0 0 ei ej = .ok ⟨ei, ej, D.data.take (ei * ej).toNat⟩ := by
  rw [Dense.getSubMatrixSelf_start D h hi hi' hj hj']
  unfold Dense.setSize
  rw [cassert_true hi.le, cassert_true hj.le]
  have hle : (ei * ej).toNat ≤ D.data.length := by
    have : ei * ej ≤ D.rows * D.cols := by nlinarith
    have := h.size
    omega
  simp only [ok_bind, resize]
  rw [show (ei * ej).toNat - D.data.length = 0 by omega]
  simp

/-- **C112** So `D.GetCol(0, end, D)` is right: the first columns remain. -/
theorem C112_sub_cols [Zero α] (D : Dense α) (h : D.WF) (hr : 0 < D.rows) {ej : Int} (hj : 0 < ej) (hj' : ej ≤ D.cols) :
    ∃ E, D.getSubMatrixSelf 0 0 D.rows ej = .ok E ∧ E.Is D.rows ej D.entry := by
  refine ⟨_, C112_sub D h hr le_rfl hj hj', ⟨?_, rfl, rfl, ?_⟩⟩
  · refine ⟨hr.le, hj.le, ?_⟩
    have : D.rows * ej ≤ D.rows * D.cols := by nlinarith
    have := h.size
    have : 0 ≤ D.rows * ej := by positivity
    simp only [List.length_take]
    omega
  · intro i j i0 i1 j0 j1
    obtain ⟨x, hx⟩ := Dense.get_some h (i := i) (j := j) i0 i1 j0 (by omega)
    have e : D.entry i j = x := by unfold Dense.entry; rw [hx]
    rw [e, ← hx]
    unfold Dense.get
    rw [Dense.checkIdx_ok (D := ⟨D.rows, ej, D.data.take (D.rows * ej).toNat⟩) i0 i1 j0 j1, Dense.checkIdx_ok (D := D) i0 i1 j0 (by omega)]
    simp only [ok_bind]
    have hp : 0 ≤ i + j * D.rows := by positivity
    have hq : i + j * D.rows < D.rows * ej := by nlinarith
    have hq2 : D.rows * ej ≤ D.rows * D.cols := by nlinarith
    have hs := h.size
    rw [rd_int hp (by simp only [List.length_take]; omega), rd_int hp (by omega)]
    congr 1
    rw [List.getElem_take]

/-- **C112** Every other part that has elements: the call stops, because the positions are compared with the new sizes. -/
theorem C112_sub_fails [Zero α] (D : Dense α) {si sj ei ej : Int} (hi : 0 ≤ si) (hi' : si < ei) (hi'' : ei ≤ D.rows)
    (hj : 0 ≤ sj) (hj' : sj < ej) (hj'' : ej ≤ D.cols) (h : 0 < si ∨ 0 < sj) :
    D.getSubMatrixSelf si sj ei ej = .error .assertFail := by
  unfold Dense.getSubMatrixSelf
  rw [Dense.checkRange_ok hi (by omega) hj (by omega) hi'.le hi'' hj'.le hj'', ok_bind]
  obtain ⟨E, h1, h2, h3, h4⟩ := Dense.setSize_wf D (r := ei - si) (c := ej - sj) (by omega) (by omega)
  simp only
  rw [h1, ok_bind]
  refine Dense.grid_fails (fun F => F.Sized (ei - si) (ej - sj)) (fun j i => i + si < ei - si ∧ j + sj < ej - sj) ⟨h2, h3, h4⟩ ?_ ?_
    ⟨ej - sj - 1, ei - si - 1, by omega, by omega, by omega, by omega, by omega⟩
  · rintro j i F j0 j1 i0 i1 ⟨hF, f1, f2⟩ ⟨g1, g2⟩
    obtain ⟨x, hx⟩ := Dense.get_some hF (i := i + si) (j := j + sj) (by omega) (by omega) (by omega) (by omega)
    rw [hx, ok_bind]
    obtain ⟨G, g, gW, g1, g2⟩ := Dense.put_some hF x (i := i) (j := j) i0 (by omega) j0 (by omega)
    exact ⟨G, g, gW, by omega, by omega⟩
  · rintro j i F j0 j1 i0 i1 ⟨hF, f1, f2⟩ hb
    rw [Dense.get_err (by omega)]; rfl

/-- **C112** `D.GetSubMatrix(0, 0, 1, 2, D)` of a matrix with two rows is not the first row; `D.GetRow(1, 2, D)` stops. -/
theorem C112_sub_false :
    (⟨2, 2, [1, 3, 2, 4]⟩ : Dense Int).getSubMatrixSelf 0 0 1 2 = .ok ⟨1, 2, [1, 3]⟩ ∧
    (⟨2, 2, [1, 3, 2, 4]⟩ : Dense Int).getSubMatrix 0 0 1 2 = .ok ⟨1, 2, [1, 2]⟩ ∧
    (⟨2, 2, [1, 3, 2, 4]⟩ : Dense Int).getSubMatrixSelf 1 0 2 2 = .error .assertFail := by decide +kernel

/-- **C112** `D.GetSubMatrix(rows, cols, D)` clears the matrix before it reads: the result is zero, or the call stops if an index is too
large for the new sizes. -/
theorem C112_subIdx [Zero α] (D : Dense α) (rows cols : List Int) :
    ((∀ r ∈ rows, 0 ≤ r ∧ r < rows.length) → (∀ c ∈ cols, 0 ≤ c ∧ c < cols.length) →
      ∃ E, D.getSubMatrixIdxSelf rows cols = .ok E ∧ E.Is rows.length cols.length (fun _ _ => 0)) ∧
    ((∃ r ∈ rows, ∃ c ∈ cols, ¬ (0 ≤ r ∧ r < rows.length ∧ 0 ≤ c ∧ c < cols.length)) →
      D.getSubMatrixIdxSelf rows cols = .error .assertFail) :=
  ⟨fun hr hc => ⟨_, Dense.getSubMatrixIdxSelf_ofFn D rows cols hr hc, Dense.is_ofFn _ _ _⟩, Dense.getSubMatrixIdxSelf_fails D rows cols⟩

example : (⟨2, 2, [1, 3, 2, 4]⟩ : Dense Int).getSubMatrixIdxSelf [1, 0] [0] = .ok ⟨2, 1, [0, 0]⟩ ∧
    (⟨2, 2, [1, 3, 2, 4]⟩ : Dense Int).getSubMatrixIdx [1, 0] [0] = .ok ⟨2, 1, [3, 1]⟩ ∧
    (⟨2, 2, [1, 3, 2, 4]⟩ : Dense Int).getSubMatrixIdxSelf [1] [0] = .error .assertFail := by decide +kernel

/-- **C112** `D.GetRow(rows, D)`: rows that were overwritten before they are read come from further back. -/
theorem C112_getRow [Zero α] (D : Dense α) (h : D.WF) (rows : List Int) (hl : (rows.length : Int) = D.rows)
    (hr : ∀ r ∈ rows, 0 ≤ r ∧ r < D.rows) :
    ∃ E, D.getRowIdxSelf rows = .ok E ∧ E.Is D.rows D.cols (fun i j => D.entry (chase (vecAt rows) i.toNat) j) := by
  have e := h.eq_ofFn
  have hr0 := h.rows_nonneg
  have hc0 := h.cols_nonneg
  refine ⟨_, by rw [e]; exact Dense.getRowIdxSelf_ofFn D.entry rows (by omega) (by rwa [Int.toNat_of_nonneg hr0]), ?_⟩
  have := Dense.is_ofFn D.rows.toNat D.cols.toNat (fun i j => D.entry (chase (vecAt rows) i.toNat) j)
  rwa [Int.toNat_of_nonneg hr0, Int.toNat_of_nonneg hc0] at this

/-- **C112** It is what was asked for when no row is taken from above its new place. -/
theorem C112_getRow_up [Zero α] (D : Dense α) (h : D.WF) (rows : List Int) (hl : (rows.length : Int) = D.rows)
    (hr : ∀ i, 0 ≤ i → i < D.rows → i ≤ vecAt rows i ∧ vecAt rows i < D.rows) :
    ∃ E, D.getRowIdxSelf rows = .ok E ∧ E.Is D.rows D.cols (fun i j => D.entry (vecAt rows i) j) := by
  obtain ⟨E, h1, h2⟩ := C112_getRow D h rows hl (by
    intro r hm
    obtain ⟨k, hk, rfl⟩ := List.mem_iff_getElem.1 hm
    have := hr k (by omega) (by omega)
    have e1 : vecAt rows (k : Int) = rows[k] := by simp [vecAt, hk]
    rw [e1] at this; omega)
  refine ⟨E, h1, h2.congr ?_⟩
  intro i j i0 i1 j0 j1
  have hi := hr i i0 i1
  rw [Dense.chase_self (i := i.toNat) (by rw [Int.toNat_of_nonneg i0]; omega), Int.toNat_of_nonneg i0]

/-- **C112** With another number of rows an assertion fails. -/
theorem C112_getRow_length (D : Dense α) (rows : List Int) (hl : (rows.length : Int) ≠ D.rows) : D.getRowIdxSelf rows = .error .assertFail := by
  unfold Dense.getRowIdxSelf
  rw [cassert_true rfl, ok_bind, cassert_false (by omega)]
  rfl

example : (⟨2, 2, [1, 3, 2, 4]⟩ : Dense Int).getRowIdxSelf [1, 0, 1] = .error .assertFail := C112_getRow_length _ _ (by decide)

/-- **C112** Exchanging two rows this way does not exchange them. -/
theorem C112_getRow_false : (⟨2, 2, [1, 3, 2, 4]⟩ : Dense Int).getRowIdxSelf [1, 0] = .ok ⟨2, 2, [3, 3, 4, 4]⟩ ∧
    (⟨2, 2, [1, 3, 2, 4]⟩ : Dense Int).getRowIdx [1, 0] = .ok ⟨2, 2, [3, 1, 4, 2]⟩ := by decide +kernel

/-- **C112** `D.SetSubMatrix(start_i, start_j, end_i, end_j, D)`: every place of the part gets what was, in the beginning, as many steps of
`(start_i, start_j)` back as lead out of the part. -/
theorem C112_setSub [Zero α] (D : Dense α) (h : D.WF) {si sj ei ej : Nat} (h1 : (si : Int) < D.rows) (h2 : (sj : Int) < D.cols)
    (h3 : si ≤ ei) (h4 : (ei : Int) ≤ D.rows) (h5 : sj ≤ ej) (h6 : (ej : Int) ≤ D.cols) :
    ∃ E, D.setSubMatrixSelf si sj ei ej = .ok E ∧ E.Is D.rows D.cols (fun i j =>
      D.entry (shiftBack si sj ei ej i.toNat j.toNat).1 (shiftBack si sj ei ej i.toNat j.toNat).2) := by
  have e := h.eq_ofFn
  have hr0 := h.rows_nonneg
  have hc0 := h.cols_nonneg
  have e' : D = Dense.ofFn D.rows.toNat D.cols.toNat (fun a b => D.entry (a.toNat : Int) (b.toNat : Int)) := by
    conv_lhs => rw [e]
    apply Dense.ofFn_congr
    intro i j i0 _ j0 _
    rw [Int.toNat_of_nonneg i0, Int.toNat_of_nonneg j0]
  refine ⟨_, by rw [e']; exact Dense.setSubMatrixSelf_ofFn (fun a b => D.entry (a : Int) (b : Int)) (by omega) (by omega) h3 (by omega) h5 (by omega), ?_⟩
  have := Dense.is_ofFn D.rows.toNat D.cols.toNat (fun i j =>
      D.entry (shiftBack si sj ei ej i.toNat j.toNat).1 (shiftBack si sj ei ej i.toNat j.toNat).2)
  rwa [Int.toNat_of_nonneg hr0, Int.toNat_of_nonneg hc0] at this

/-- **C112** If the part does not meet its source, the source is copied. -/
theorem C112_setSub_apart [Zero α] (D : Dense α) (h : D.WF) {si sj ei ej : Nat} (h1 : (si : Int) < D.rows) (h2 : (sj : Int) < D.cols)
    (h3 : si ≤ ei) (h4 : (ei : Int) ≤ D.rows) (h5 : sj ≤ ej) (h6 : (ej : Int) ≤ D.cols) (ha : ei - si ≤ si ∨ ej - sj ≤ sj) :
    ∃ E, D.setSubMatrixSelf si sj ei ej = .ok E ∧ E.Is D.rows D.cols (fun i j =>
      if (si : Int) ≤ i ∧ i < ei ∧ (sj : Int) ≤ j ∧ j < ej then D.entry (i - si) (j - sj) else D.entry i j) := by
  obtain ⟨E, e1, e2⟩ := C112_setSub D h h1 h2 h3 h4 h5 h6
  refine ⟨E, e1, e2.congr ?_⟩
  intro i j i0 i1 j0 j1
  by_cases hc : (si : Int) ≤ i ∧ i < ei ∧ (sj : Int) ≤ j ∧ j < ej
  · rw [if_pos hc]
    rw [shiftBack, dif_pos (by omega), shiftBack, dif_neg (by omega)]
    congr 1 <;> omega
  · rw [if_neg hc, shiftBack, dif_neg (by omega)]
    congr 1 <;> omega

/-- **C112** Moving all rows down by one fills the matrix with the first row. -/
theorem C112_setSub_false : (⟨3, 1, [1, 2, 3]⟩ : Dense Int).setSubMatrixSelf 1 0 3 1 = .ok ⟨3, 1, [1, 1, 1]⟩ ∧
    (⟨3, 1, [1, 2, 3]⟩ : Dense Int).setSubMatrixRange 1 0 3 1 ⟨3, 1, [1, 2, 3]⟩ = .ok ⟨3, 1, [1, 1, 2]⟩ := by decide +kernel

/-- **C112** `D.SetRow(row, D.GetColView(col))` on a square matrix: the row becomes the column, except that the diagonal element of the row is
`D(col, col)` if the column is left of it. -/
theorem C112_setRow [Zero α] (D : Dense α) (h : D.WF) (hs : D.rows = D.cols) {row col : Int} (r0 : 0 ≤ row) (r1 : row < D.rows)
    (c0 : 0 ≤ col) (c1 : col < D.cols) :
    ∃ E, D.setRowColSelf row col = .ok E ∧ E.Is D.rows D.rows (fun i j =>
      if i = row then (if j = row ∧ col < row then D.entry col col else D.entry j col) else D.entry i j) := by
  have e := h.eq_ofFn
  rw [← hs] at e
  have hr0 := h.rows_nonneg
  refine ⟨_, by rw [e]; exact Dense.setRowColSelf_ofFn _ _ r0 (by omega) c0 (by omega), ?_⟩
  have := Dense.is_ofFn D.rows.toNat D.rows.toNat (fun i j =>
      if i = row then (if j = row ∧ col < row then D.entry col col else D.entry j col) else D.entry i j)
  rwa [Int.toNat_of_nonneg hr0] at this

example : (⟨2, 2, [1, 3, 2, 4]⟩ : Dense Int).setRowColSelf 1 0 = .ok ⟨2, 2, [1, 1, 2, 1]⟩ ∧
    (⟨2, 2, [1, 3, 2, 4]⟩ : Dense Int).setRowVec 1 [1, 3] = .ok ⟨2, 2, [1, 1, 2, 3]⟩ := by decide +kernel

/-- **C112** `D += D` and `D -= D` are right. -/
theorem C112_update [Ring α] (D : Dense α) : D.zipUpdateSelf (· + ·) = D.addAssign D ∧ D.zipUpdateSelf (· - ·) = D.subAssign D :=
  ⟨Dense.zipUpdateSelf_eq _ D, Dense.zipUpdateSelf_eq _ D⟩

example : (⟨1, 2, [1, 2]⟩ : Dense Int).zipUpdateSelf (· + ·) = .ok ⟨1, 2, [2, 4]⟩ := by decide +kernel

/-! ## Products of a sparse matrix with a dense one -/

/-- **C112** `A.Mult(D, D)` clears `D` before it reads it: the result is zero, or the call stops at an entry in a column that the new `D` has
no row for. -/
theorem C112_mult [NonUnitalNonAssocSemiring α] (A : Csr α) (hA : A.WF) (D : Dense α) (hD : 0 ≤ D.cols) (hs : D.rows = A.cols) :
    ((∀ c ∈ A.indices, c < A.rows) → ∃ E, A.multDenseSelf D = .ok E ∧ E.Is A.rows D.cols (fun _ _ => 0)) ∧
    ((∃ c ∈ A.indices, A.rows ≤ c) → 0 < D.cols → A.multDenseSelf D = .error .assertFail) := by
  obtain ⟨r, hr⟩ := Int.eq_ofNat_of_zero_le hA.rows_nonneg
  obtain ⟨c, hc⟩ := Int.eq_ofNat_of_zero_le hD
  obtain ⟨f, hf⟩ := Dense.setSize_ofFn D r c
  unfold Csr.multDenseSelf
  rw [cassert_true hs, ok_bind]
  simp only [hr, hc]
  rw [hf, ok_bind, Dense.fill_ofFn]
  simp only [Dense.ofFn_cols]
  simp only [← hr]
  have hcol : ∀ i e, 0 ≤ i → i < A.rows → e ∈ A.row i → 0 ≤ e.1 := fun i e i0 i1 he =>
    (hA.cols_ok _ (hA.mem_indices.2 ⟨i, i0, i1, e, he, rfl⟩)).1
  refine ⟨fun h => ⟨Dense.ofFn r c (fun _ _ => 0), ?_, by rw [hr]; exact Dense.is_ofFn _ _ _⟩, ?_⟩
  · refine forUp_seq (by omega) (fun _ => Dense.ofFn r c (fun _ _ => (0 : α))) ?_
    intro k k0 k1
    refine forUp_seq hA.rows_nonneg (fun _ => Dense.ofFn r c (fun _ _ => (0 : α))) ?_
    intro i i0 i1
    rw [Csr.rowVal hA i0 i1 (fun c' => (Dense.ofFn r c (fun _ _ => (0 : α))).get c' k) (by
      intro e he
      have := h _ (hA.mem_indices.2 ⟨i, i0, i1, e, he, rfl⟩)
      exact Dense.get_ofFn (hcol i e i0 i1 he) (by omega) k0 k1), ok_bind, Dense.put_ofFn _ i0 (by omega) k0 k1]
    congr 1
    apply Dense.ofFn_congr
    intros; split <;> rfl
  · rintro ⟨c', hc', hbad⟩ hpos
    obtain ⟨i', i0', i1', e', he', rfl⟩ := hA.mem_indices.1 hc'
    refine forUp_fails (fun _ E => E = Dense.ofFn r c (fun _ _ => (0 : α))) (fun _ => False) _ rfl (fun _ _ _ _ _ h => h.elim) ?_
      ⟨0, le_rfl, by omega, fun h => h⟩
    rintro k E k0 k1 rfl -
    have hge : ∀ e : Int × α, e.1 < A.rows → 0 ≤ e.1 → (Dense.ofFn r c (fun _ _ => (0 : α))).get e.1 k = .ok 0 :=
      fun (e : Int × α) h h0 => Dense.get_ofFn h0 (by omega) k0 k1
    refine forUp_fails (fun _ E => E = Dense.ofFn r c (fun _ _ => (0 : α))) (fun i => ∀ e ∈ A.row i, e.1 < A.rows) _ rfl ?_ ?_
      ⟨i', i0', i1', fun h => absurd (h e' he') (by omega)⟩
    · rintro i E i0 i1 rfl hg
      refine ⟨_, ?_, rfl⟩
      rw [Csr.rowVal hA i0 i1 (fun c' => (Dense.ofFn r c (fun _ _ => (0 : α))).get c' k) (by
        intro e he
        exact hge e (hg e he) (hcol i e i0 i1 he)), ok_bind, Dense.put_ofFn _ i0 (by omega) k0 k1]
      congr 1
      apply Dense.ofFn_congr
      intros; split <;> rfl
    · rintro i E i0 i1 rfl hb
      push Not at hb
      obtain ⟨e, he, hb⟩ := hb
      have herr : ∀ e : Int × α, A.rows ≤ e.1 → (Dense.ofFn r c (fun _ _ => (0 : α))).get e.1 k = .error .assertFail :=
        fun e h => Dense.get_err (by simp only [Dense.ofFn_rows]; omega)
      rw [Csr.rowVal_fails hA i0 i1 (fun c' => (Dense.ofFn r c (fun _ _ => (0 : α))).get c' k) (by
        intro e he
        by_cases hl : e.1 < A.rows
        · exact .inl (hge e hl (hcol i e i0 i1 he))
        · exact .inr (herr e (by omega))) ⟨e, he, herr e hb⟩]
      rfl

/-- **C112** For a square `A` the result of `A.Mult(D, D)` is zero, always. -/
theorem C112_mult_square [NonUnitalNonAssocSemiring α] (A : Csr α) (hA : A.WF) (hq : A.rows = A.cols) (D : Dense α) (hD : 0 ≤ D.cols)
    (hs : D.rows = A.cols) : ∃ E, A.multDenseSelf D = .ok E ∧ E.Is A.rows D.cols (fun _ _ => 0) :=
  (C112_mult A hA D hD hs).1 (fun c hc => by have := hA.cols_ok c hc; omega)

example : (Csr.mk 2 2 [0, 1, 2] [1, 0] [1, 1] : Csr Int).multDenseSelf ⟨2, 2, [1, 3, 2, 4]⟩ = .ok ⟨2, 2, [0, 0, 0, 0]⟩ ∧
    (Csr.mk 2 2 [0, 1, 2] [1, 0] [1, 1] : Csr Int).multDense ⟨2, 2, [1, 3, 2, 4]⟩ = .ok ⟨2, 2, [3, 1, 4, 2]⟩ ∧
    (Csr.mk 1 2 [0, 1] [1] [1] : Csr Int).multDenseSelf ⟨2, 2, [1, 3, 2, 4]⟩ = .error .assertFail := by decide +kernel

/-- **C112** `A.MultAT(D, D)`: zero, or the call stops at a row with entries that the new `D` has no row for. -/
theorem C112_multAT [NonUnitalNonAssocSemiring α] (A : Csr α) (hA : A.WF) (D : Dense α) (hD : 0 ≤ D.cols) (hs : D.rows = A.rows) :
    ((∀ i, A.cols ≤ i → i < A.rows → A.row i = []) → ∃ E, A.multATDenseSelf D = .ok E ∧ E.Is A.cols D.cols (fun _ _ => 0)) ∧
    ((∃ i, A.cols ≤ i ∧ i < A.rows ∧ A.row i ≠ []) → 0 < D.cols → A.multATDenseSelf D = .error .assertFail) := by
  obtain ⟨r, hr⟩ := Int.eq_ofNat_of_zero_le hA.cols_nonneg
  obtain ⟨c, hc⟩ := Int.eq_ofNat_of_zero_le hD
  obtain ⟨f, hf⟩ := Dense.setSize_ofFn D r c
  unfold Csr.multATDenseSelf
  rw [cassert_true hs, ok_bind]
  simp only [hr, hc]
  rw [hf, ok_bind, Dense.fill_ofFn]
  simp only [Dense.ofFn_cols]
  have hcol : ∀ i e, 0 ≤ i → i < A.rows → e ∈ A.row i → 0 ≤ e.1 ∧ e.1 < r := fun i e i0 i1 he => by
    rw [← hr]; exact hA.cols_ok _ (hA.mem_indices.2 ⟨i, i0, i1, e, he, rfl⟩)
  have hrow : ∀ k i : Int, 0 ≤ k → k < c → 0 ≤ i → i < A.rows → (i < r ∨ A.row i = []) →
      A.forRow i (Dense.ofFn r c (fun _ _ => (0 : α))) (fun j D => do
        let c ← rd A.indices j
        let d ← rd A.data j
        let x ← D.get i k
        let old ← D.get c k
        D.put c k (old + d * x)) = .ok (Dense.ofFn r c (fun _ _ => (0 : α))) := by
    intro k i k0 k1 i0 i1 h
    rw [hA.forRow_eq i0 i1 _ (fun c d (D : Dense α) => do
        let x ← D.get i k
        let old ← D.get c k
        D.put c k (old + d * x))]
    rcases h with h | h
    · have hcol' := fun e => hcol i e i0 i1
      generalize A.row i = l at hcol'
      induction l with
      | nil => rfl
      | cons e l ih =>
        obtain ⟨e0, e1⟩ := hcol' e (by simp)
        rw [List.foldlM_cons, Dense.get_ofFn i0 h k0 k1, ok_bind, Dense.get_ofFn e0 e1 k0 k1, ok_bind, Dense.put_ofFn _ e0 e1 k0 k1, ok_bind]
        have e2 : Dense.ofFn r c (fun a b => if a = e.1 ∧ b = k then (0 : α) + e.2 * 0 else 0) = Dense.ofFn r c (fun _ _ => 0) := by
          apply Dense.ofFn_congr
          intros; split <;> simp
        rw [e2]
        exact ih (fun e he => hcol' e (by simp [he]))
    · rw [h]; rfl
  refine ⟨fun h => ⟨Dense.ofFn r c (fun _ _ => 0), ?_, Dense.is_ofFn _ _ _⟩, ?_⟩
  · refine forUp_seq (by omega) (fun _ => Dense.ofFn r c (fun _ _ => (0 : α))) ?_
    intro k k0 k1
    refine forUp_seq hA.rows_nonneg (fun _ => Dense.ofFn r c (fun _ _ => (0 : α))) ?_
    intro i i0 i1
    exact hrow k i k0 k1 i0 i1 (by
      by_cases hi : i < r
      · exact .inl hi
      · exact .inr (h i (by omega) i1))
  · rintro ⟨i', i0', i1', hne⟩ hpos
    refine forUp_fails (fun _ E => E = Dense.ofFn r c (fun _ _ => (0 : α))) (fun _ => False) _ rfl (fun _ _ _ _ _ h => h.elim) ?_
      ⟨0, le_rfl, by omega, fun h => h⟩
    rintro k E k0 k1 rfl -
    refine forUp_fails (fun _ E => E = Dense.ofFn r c (fun _ _ => (0 : α))) (fun i => i < r ∨ A.row i = []) _ rfl ?_ ?_
      ⟨i', by omega, i1', by rintro (h | h); omega; exact hne h⟩
    · rintro i E i0 i1 rfl hg
      exact ⟨_, hrow k i k0 k1 i0 i1 hg, rfl⟩
    · rintro i E i0 i1 rfl hb
      rw [hA.forRow_eq i0 i1 _ (fun c d (D : Dense α) => do
        let x ← D.get i k
        let old ← D.get c k
        D.put c k (old + d * x))]
      push Not at hb
      obtain ⟨b1, b2⟩ := hb
      cases hl : A.row i with
      | nil => exact absurd hl b2
      | cons e l =>
        rw [List.foldlM_cons, Dense.get_err (by simp only [Dense.ofFn_rows]; omega)]
        rfl

/-- **C112** For a square `A` the result of `A.MultAT(D, D)` is zero, always. -/
theorem C112_multAT_square [NonUnitalNonAssocSemiring α] (A : Csr α) (hA : A.WF) (hq : A.rows = A.cols) (D : Dense α) (hD : 0 ≤ D.cols)
    (hs : D.rows = A.rows) : ∃ E, A.multATDenseSelf D = .ok E ∧ E.Is A.cols D.cols (fun _ _ => 0) :=
  (C112_multAT A hA D hD hs).1 (fun i h1 h2 => by omega)

example : (Csr.mk 2 2 [0, 1, 2] [1, 0] [1, 1] : Csr Int).multATDenseSelf ⟨2, 2, [1, 3, 2, 4]⟩ = .ok ⟨2, 2, [0, 0, 0, 0]⟩ ∧
    (Csr.mk 2 2 [0, 1, 2] [1, 0] [1, 1] : Csr Int).multATDense ⟨2, 2, [1, 3, 2, 4]⟩ = .ok ⟨2, 2, [3, 1, 4, 2]⟩ ∧
    (Csr.mk 2 1 [0, 0, 1] [0] [1] : Csr Int).multATDenseSelf ⟨2, 1, [1, 3]⟩ = .error .assertFail := by decide +kernel

/-- **C112** `A.MultCT(D, D)`: zero if `D` has at least as many columns as `A` has rows and as any stored column index asks for; otherwise the
call stops. -/
theorem C112_multCT [NonUnitalNonAssocSemiring α] (A : Csr α) (hA : A.WF) (D : Dense α) (hD : 0 ≤ D.cols) (hs : D.rows = A.cols) :
    ((A.rows ≤ D.cols ∧ ∀ c ∈ A.indices, c < D.cols) → ∃ E, A.multCTDenseSelf D = .ok E ∧ E.Is D.cols A.rows (fun _ _ => 0)) ∧
    (¬ (A.rows ≤ D.cols ∧ ∀ c ∈ A.indices, c < D.cols) → A.multCTDenseSelf D = .error .assertFail) := by
  obtain ⟨r, hr⟩ := Int.eq_ofNat_of_zero_le hA.rows_nonneg
  obtain ⟨c, hc⟩ := Int.eq_ofNat_of_zero_le hD
  obtain ⟨f, hf⟩ := Dense.setSize_ofFn D c r
  unfold Csr.multCTDenseSelf
  rw [cassert_true hs, ok_bind]
  simp only [hr, hc]
  rw [hf, ok_bind, Dense.fill_ofFn]
  simp only [Dense.ofFn_cols]
  have hcol : ∀ i e, 0 ≤ i → i < A.rows → e ∈ A.row i → 0 ≤ e.1 := fun i e i0 i1 he =>
    (hA.cols_ok _ (hA.mem_indices.2 ⟨i, i0, i1, e, he, rfl⟩)).1
  have hget : ∀ (k : Int) (e : Int × α), 0 ≤ k → k < r → 0 ≤ e.1 → e.1 < c → (Dense.ofFn c r (fun _ _ => (0 : α))).get e.1 k = .ok 0 :=
    fun k e k0 k1 e0 e1 => Dense.get_ofFn e0 e1 k0 k1
  have herr : ∀ (k : Int) (e : Int × α), (c : Int) ≤ e.1 → (Dense.ofFn c r (fun _ _ => (0 : α))).get e.1 k = .error .assertFail :=
    fun k e e1 => Dense.get_err (by simp only [Dense.ofFn_rows]; omega)
  have hstep : ∀ k i : Int, 0 ≤ k → k < r → k < c → 0 ≤ i → i < r → (∀ e ∈ A.row i, e.1 < c) →
      (A.forRow i (0 : α) (fun j val => do
        let d ← rd A.data j
        let c' ← rd A.indices j
        let x ← (Dense.ofFn c r (fun _ _ => (0 : α))).get c' k
        .ok (val + d * x)) >>= fun val => (Dense.ofFn c r (fun _ _ => (0 : α))).put k i val) = .ok (Dense.ofFn c r (fun _ _ => (0 : α))) := by
    intro k i k0 k1 k2 i0 i1 h
    rw [Csr.rowVal hA i0 (by omega) (fun c' => (Dense.ofFn c r (fun _ _ => (0 : α))).get c' k)
      (fun e he => hget k e k0 k1 (hcol i e i0 (by omega) he) (h e he)), ok_bind, Dense.put_ofFn _ k0 k2 i0 i1]
    congr 1
    apply Dense.ofFn_congr
    intros; split <;> rfl
  refine ⟨fun ⟨h1, h2⟩ => ⟨Dense.ofFn c r (fun _ _ => 0), ?_, Dense.is_ofFn _ _ _⟩, ?_⟩
  · refine forUp_seq (by omega) (fun _ => Dense.ofFn c r (fun _ _ => (0 : α))) ?_
    intro k k0 k1
    refine forUp_seq (by omega) (fun _ => Dense.ofFn c r (fun _ _ => (0 : α))) ?_
    intro i i0 i1
    exact hstep k i k0 k1 (by omega) i0 i1 (fun e he => h2 _ (hA.mem_indices.2 ⟨i, i0, by omega, e, he, rfl⟩))
  · intro hbad
    -- the pairs (k, i) at which everything fits
    let good : Int → Int → Prop := fun k i => k < c ∧ ∀ e ∈ A.row i, e.1 < c
    have hex : ∃ k i : Int, 0 ≤ k ∧ k < r ∧ 0 ≤ i ∧ i < r ∧ ¬ good k i := by
      by_cases h1 : (r : Int) ≤ c
      · have : ¬ ∀ c' ∈ A.indices, c' < (c : Int) := fun h => hbad ⟨h1, h⟩
        push Not at this
        obtain ⟨c', hc', hlt⟩ := this
        obtain ⟨i, i0, i1, e, he, rfl⟩ := hA.mem_indices.1 hc'
        exact ⟨0, i, le_rfl, by omega, i0, by omega, fun h => absurd (h.2 e he) (by omega)⟩
      · exact ⟨c, 0, by omega, by omega, le_rfl, by omega, fun h => absurd h.1 (by omega)⟩
    refine Dense.grid_fails (fun F => F = Dense.ofFn c r (fun _ _ => (0 : α))) good rfl ?_ ?_ hex
    · rintro k i F k0 k1 i0 i1 rfl ⟨g1, g2⟩
      exact ⟨_, hstep k i k0 k1 g1 i0 i1 g2, rfl⟩
    · rintro k i F k0 k1 i0 i1 rfl hb
      by_cases hall : ∀ e ∈ A.row i, e.1 < (c : Int)
      · have hk : ¬ k < c := fun h => hb ⟨h, hall⟩
        rw [Csr.rowVal hA i0 (by omega) (fun c' => (Dense.ofFn c r (fun _ _ => (0 : α))).get c' k)
          (fun e he => hget k e k0 k1 (hcol i e i0 (by omega) he) (hall e he)), ok_bind, Dense.put_err (by simp only [Dense.ofFn_rows]; omega)]
      · push Not at hall
        obtain ⟨e, he, hb⟩ := hall
        rw [Csr.rowVal_fails hA i0 (by omega) (fun c' => (Dense.ofFn c r (fun _ _ => (0 : α))).get c' k) (by
          intro e he
          by_cases hl : e.1 < c
          · exact .inl (hget k e k0 k1 (hcol i e i0 (by omega) he) hl)
          · exact .inr (herr k e (by omega))) ⟨e, he, herr k e hb⟩]
        rfl

example : (Csr.mk 2 2 [0, 1, 2] [1, 0] [1, 1] : Csr Int).multCTDenseSelf ⟨2, 2, [1, 3, 2, 4]⟩ = .ok ⟨2, 2, [0, 0, 0, 0]⟩ ∧
    (Csr.mk 2 2 [0, 1, 2] [1, 0] [1, 1] : Csr Int).multCTDense ⟨2, 2, [1, 3, 2, 4]⟩ = .ok ⟨2, 2, [3, 4, 1, 2]⟩ ∧
    (Csr.mk 2 2 [0, 1, 2] [1, 0] [1, 1] : Csr Int).multCTDenseSelf ⟨2, 1, [1, 3]⟩ = .error .assertFail := by decide +kernel

/-! ## Scaling a sparse matrix with its own values -/

/-- **C112** `A.ScaleRows(A)` and `A.InverseScaleRows(A)` use the values as they were in the beginning if row `i` starts no later than at
position `i`, for all rows. -/
theorem C112_scaleRows [Field α] [DecidableEq α] (A : Csr α) (hA : A.WF)
    (h : ∀ i lo, 0 ≤ i → i < A.rows → rd A.indptr i = .ok lo → lo ≤ i) :
    A.scaleRowsSelf = A.scaleRowsMat A ∧ A.inverseScaleRowsSelf = A.inverseScaleRowsMat A := by
  constructor
  · unfold Csr.scaleRowsSelf Csr.scaleRowsMat Csr.scaleRows
    rw [hA.scaleLoops (pf := fun i data => rd data i) (pg := fun i _ => rd A.data i)
      (F := fun _ s j data => do let d ← rd data j; wr data j (d * s)) (G := fun _ s j data => do let d ← rd data j; wr data j (d * s)) rfl rfl]
    · intro i d lo i0 i1 hlo hd; exact hd.2 i (h i lo i0 i1 hlo)
    · intros; rfl
    · intro i s j d d' hw
      obtain ⟨x, _, hx⟩ := bind_eq_ok.1 hw
      exact ⟨_, hx⟩
  · unfold Csr.inverseScaleRowsSelf Csr.inverseScaleRowsMat Csr.inverseScaleRows
    rw [hA.scaleLoops (pf := fun i data => do let s ← rd data i; cassert (s ≠ 0); .ok s)
      (pg := fun i _ => do let s ← rd A.data i; cassert (s ≠ 0); .ok s)
      (F := fun _ s j data => do let d ← rd data j; wr data j (d / s)) (G := fun _ s j data => do let d ← rd data j; wr data j (d / s))
      (f := fun i data => do
        let s ← rd data i
        cassert (s ≠ 0)
        A.forRow i data (fun j data => do
          let d ← rd data j
          wr data j (d / s)))
      (g := fun i data => do
        let s ← rd A.data i
        cassert (s ≠ 0)
        A.forRow i data (fun j data => do
          let d ← rd data j
          wr data j (d / s)))
      (by funext i d; cases rd d i <;> simp [bind_assoc]) (by funext i d; cases rd A.data i <;> simp [bind_assoc])]
    · intro i d lo i0 i1 hlo hd; simp only [hd.2 i (h i lo i0 i1 hlo)]
    · intros; rfl
    · intro i s j d d' hw
      obtain ⟨x, _, hx⟩ := bind_eq_ok.1 hw
      exact ⟨_, hx⟩

/-- **C112** `A.ScaleCols(A)` and `A.InverseScaleCols(A)` use the values as they were in the beginning if the entry at position `p` is in column
`p` or further right, for all positions. -/
theorem C112_scaleCols [Field α] [DecidableEq α] (A : Csr α) (hA : A.WF) (h : ∀ p c : Int, rd A.indices p = .ok c → p ≤ c) :
    A.scaleColsSelf = A.scaleColsMat A ∧ A.inverseScaleColsSelf = A.inverseScaleColsMat A := by
  constructor
  · unfold Csr.scaleColsSelf Csr.scaleColsMat Csr.scaleCols
    rw [hA.scaleLoops (pf := fun _ _ => .ok ()) (pg := fun _ _ => .ok ())
      (F := fun _ _ j data => do let c ← rd A.indices j; let s ← rd data c; let d ← rd data j; wr data j (d * s))
      (G := fun _ _ j data => do let c ← rd A.indices j; let s ← rd A.data c; let d ← rd data j; wr data j (d * s))
      (f := fun i data => A.forRow i data (fun j data => do let c ← rd A.indices j; let s ← rd data c; let d ← rd data j; wr data j (d * s)))
      (g := fun i data => A.forRow i data (fun j data => do let c ← rd A.indices j; let s ← rd A.data c; let d ← rd data j; wr data j (d * s))) rfl rfl]
    · intros; rfl
    · intro i s j d j0 j1 hd
      cases hc : rd A.indices j with
      | error e => rfl
      | ok c => simp only [ok_bind, hd.2 c (h j c hc)]
    · intro i s j d d' hw
      obtain ⟨_, _, hw⟩ := bind_eq_ok.1 hw
      obtain ⟨_, _, hw⟩ := bind_eq_ok.1 hw
      obtain ⟨_, _, hw⟩ := bind_eq_ok.1 hw
      exact ⟨_, hw⟩
  · unfold Csr.inverseScaleColsSelf Csr.inverseScaleColsMat Csr.inverseScaleCols
    rw [hA.scaleLoops (pf := fun _ _ => .ok ()) (pg := fun _ _ => .ok ())
      (F := fun _ _ j data => do let c ← rd A.indices j; let s ← rd data c; cassert (s ≠ 0); let d ← rd data j; wr data j (d / s))
      (G := fun _ _ j data => do let c ← rd A.indices j; let s ← rd A.data c; cassert (s ≠ 0); let d ← rd data j; wr data j (d / s))
      (f := fun i data => A.forRow i data (fun j data => do let c ← rd A.indices j; let s ← rd data c; cassert (s ≠ 0); let d ← rd data j; wr data j (d / s)))
      (g := fun i data => A.forRow i data (fun j data => do let c ← rd A.indices j; let s ← rd A.data c; cassert (s ≠ 0); let d ← rd data j; wr data j (d / s))) rfl rfl]
    · intros; rfl
    · intro i s j d j0 j1 hd
      cases hc : rd A.indices j with
      | error e => rfl
      | ok c => simp only [ok_bind, hd.2 c (h j c hc)]
    · intro i s j d d' hw
      obtain ⟨_, _, hw⟩ := bind_eq_ok.1 hw
      obtain ⟨_, _, hw⟩ := bind_eq_ok.1 hw
      obtain ⟨_, _, hw⟩ := bind_eq_ok.1 hw
      obtain ⟨_, _, hw⟩ := bind_eq_ok.1 hw
      exact ⟨_, hw⟩

/-- **C112** So a diagonal matrix can be scaled with itself. -/
theorem C112_scale_diag [Field α] [DecidableEq α] (d : List α) (hA : (Csr.ofDiag d).WF) :
    (Csr.ofDiag d).scaleRowsSelf = (Csr.ofDiag d).scaleRowsMat (Csr.ofDiag d) ∧
    (Csr.ofDiag d).inverseScaleRowsSelf = (Csr.ofDiag d).inverseScaleRowsMat (Csr.ofDiag d) ∧
    (Csr.ofDiag d).scaleColsSelf = (Csr.ofDiag d).scaleColsMat (Csr.ofDiag d) ∧
    (Csr.ofDiag d).inverseScaleColsSelf = (Csr.ofDiag d).inverseScaleColsMat (Csr.ofDiag d) := by
  have hrd : ∀ (n : Nat) (i c : Int), rd (iota n) i = .ok c → c = i := by
    intro n i c h
    have := rd_eq_ok.1 h
    obtain ⟨k, rfl⟩ := Int.eq_ofNat_of_zero_le this.1
    obtain ⟨h1, h2⟩ := List.getElem?_eq_some_iff.1 this.2
    rw [← h2]
    simp
  obtain ⟨h1, h2⟩ := C112_scaleRows _ hA (fun i lo _ _ h => (hrd _ _ _ h).le)
  obtain ⟨h3, h4⟩ := C112_scaleCols _ hA (fun p c h => (hrd _ _ _ h).ge)
  exact ⟨h1, h2, h3, h4⟩

example : (Csr.ofDiag [(2 : ℚ), 3]).WF ∧ (Csr.ofDiag [(2 : ℚ), 3]).scaleRowsSelf = .ok (Csr.ofDiag [4, 9]) ∧
    (Csr.ofDiag [(2 : ℚ), 3]).inverseScaleColsSelf = .ok (Csr.ofDiag [1, 1]) := by decide +kernel

/-- **C112** Without these conditions factors are used that were scaled before. -/
theorem C112_scale_false :
    (Csr.mk 2 2 [0, 1, 2] [1, 0] [2, 3] : Csr Int).scaleColsSelf = .ok ⟨2, 2, [0, 1, 2], [1, 0], [6, 18]⟩ ∧
    (Csr.mk 2 2 [0, 1, 2] [1, 0] [2, 3] : Csr Int).scaleColsMat ⟨2, 2, [0, 1, 2], [1, 0], [2, 3]⟩ = .ok ⟨2, 2, [0, 1, 2], [1, 0], [6, 6]⟩ ∧
    (Csr.mk 3 2 [0, 2, 3, 3] [0, 1, 0] [2, 3, 5] : Csr Int).scaleRowsSelf = .ok ⟨3, 2, [0, 2, 3, 3], [0, 1, 0], [4, 6, 30]⟩ ∧
    (Csr.mk 3 2 [0, 2, 3, 3] [0, 1, 0] [2, 3, 5] : Csr Int).scaleRowsMat ⟨3, 2, [0, 2, 3, 3], [0, 1, 0], [2, 3, 5]⟩
      = .ok ⟨3, 2, [0, 2, 3, 3], [0, 1, 0], [4, 6, 15]⟩ := by decide +kernel

/-! ## Parts of a vector -/

/-- **C112** `x.GetSubVector(indices, x)`: the vector is resized first, so an index that is not smaller than the number of indices stops the call;
otherwise elements that were overwritten before they are read come from further back. -/
theorem C112_subVector [Zero α] (x : List α) (indices : List Int) :
    ((∀ k ∈ indices, 0 ≤ k ∧ k < indices.length) →
      ∃ z, Vec.getSubVectorSelf x indices = .ok z ∧ VecIs z indices.length (fun i => vecAt x (chase (vecAt indices) i.toNat))) ∧
    ((∃ k ∈ indices, ¬ (0 ≤ k ∧ k < indices.length)) → Vec.getSubVectorSelf x indices = .error .assertFail) := by
  have hsz : Vec.setSize x indices.length 0 = .ok (vecFn indices.length (vecAt x)) := by
    have hcore : resize x indices.length 0 = vecFn indices.length (vecAt x) := by
      apply List.ext_getElem
      · simp [resize]; omega
      · intro n h1 h2
        simp only [resize, vecFn, vecAt, List.getElem_append, List.getElem_take, List.getElem_replicate, List.getElem_map, List.getElem_range]
        simp only [vecFn, List.length_map, List.length_range] at h2
        rw [if_pos (by omega)]
        split
        · rename_i h
          simp only [List.length_take] at h
          simp [List.getD_eq_getElem?_getD, show n < x.length by omega]
        · rename_i h
          simp only [List.length_take] at h
          simp [List.getD_eq_getElem?_getD, show x.length ≤ n by omega]
    unfold Vec.setSize
    split
    · rw [cassert_true (by omega), ok_bind, Int.toNat_natCast, hcore]
    · rename_i h
      push Not at h
      have : indices.length = x.length := by omega
      rw [this, ← eq_vecFn_vecAt]
  have hrow : ∀ i : Int, 0 ≤ i → i < indices.length → rd indices i = .ok (vecAt indices i) ∧ vecAt indices i ∈ indices := by
    intro i i0 i1
    have e := (vecIs_vecAt indices).2 i i0 i1
    exact ⟨e, by rw [rd_eq_ok] at e; exact List.mem_of_getElem? e.2⟩
  unfold Vec.getSubVectorSelf
  rw [hsz, ok_bind]
  constructor
  · intro hk
    refine ⟨_, ?_, is_vecFn _ _⟩
    have e0 : vecFn indices.length (vecAt x) = vecFn indices.length (fun a => if a < 0 then vecAt x (chase (vecAt indices) a.toNat) else vecAt x a) := by
      apply vecFn_congr; intros; rw [if_neg (by omega)]
    have e1 : vecFn indices.length (fun i => vecAt x (chase (vecAt indices) i.toNat))
        = vecFn indices.length (fun a => if a < (indices.length : Int) then vecAt x (chase (vecAt indices) a.toNat) else vecAt x a) := by
      apply vecFn_congr; intros; rw [if_pos (by omega)]
    rw [e0, e1]
    refine forUp_seq (by omega) (fun i => vecFn indices.length (fun a => if a < i then vecAt x (chase (vecAt indices) a.toNat) else vecAt x a)) ?_
    intro i i0 i1
    obtain ⟨q1, q2⟩ := hrow i i0 i1
    obtain ⟨q3, q4⟩ := hk _ q2
    have hci : vecAt indices ((i.toNat : Nat) : Int) = vecAt indices i := by rw [Int.toNat_of_nonneg i0]
    rw [q1, ok_bind, cassert_true q3, ok_bind, cassert_true (by simpa using q4), ok_bind, vrd_eq_rd (by simpa using q4), rd_vecFn q3 q4, ok_bind,
      vwr_eq_wr (by simpa using i1), wr_vecFn _ i0 i1]
    congr 1
    apply vecFn_congr
    intro a a0 a1
    by_cases ha : a = i
    · subst ha
      rw [if_pos rfl, if_pos (c := a < a + 1) (by omega)]
      by_cases hlt : vecAt indices a < a
      · rw [if_pos hlt, Dense.chase_step (i := a.toNat) (by rw [hci]; omega), hci]
      · rw [if_neg hlt, Dense.chase_self (i := a.toNat) (by rw [hci]; omega), hci]
    · rw [if_neg ha]
      congr 1; apply propext; constructor <;> intro h <;> omega
  · rintro ⟨k, hk, hbad⟩
    obtain ⟨m, hm, rfl⟩ := List.mem_iff_getElem.1 hk
    refine forUp_fails (fun _ (z : List α) => z.length = indices.length) (fun i => 0 ≤ vecAt indices i ∧ vecAt indices i < indices.length) _
      (by simp) ?_ ?_ ⟨m, by omega, by omega, ?_⟩
    · rintro i z i0 i1 hz ⟨g1, g2⟩
      rw [(hrow i i0 i1).1, ok_bind, cassert_true g1, ok_bind, cassert_true (by rw [hz]; exact g2), ok_bind, vrd_eq_rd (by rw [hz]; exact g2),
        rd_int g1 (by rw [hz]; exact g2), ok_bind, vwr_eq_wr (by rw [hz]; exact i1), wr_int i0 (by rw [hz]; exact i1)]
      exact ⟨_, rfl, by simpa using hz⟩
    · rintro i z i0 i1 hz hb
      rw [(hrow i i0 i1).1, ok_bind]
      by_cases h0 : 0 ≤ vecAt indices i
      · rw [cassert_true h0, ok_bind, cassert_false (by rw [hz]; exact fun h => hb ⟨h0, h⟩)]; rfl
      · rw [cassert_false h0]; rfl
    · have : vecAt indices (m : Int) = indices[m] := by simp [vecAt, hm]
      rwa [this]

example : Vec.getSubVectorSelf [10, 20, 30] [1, 0, 2] = .ok ([20, 20, 30] : List Int) ∧
    Vec.getSubVector [10, 20, 30] [1, 0, 2] [] = .ok ([20, 10, 30] : List Int) ∧
    Vec.getSubVectorSelf [10, 20, 30] [2] = (.error .assertFail : Res (List Int)) ∧
    Vec.getSubVectorSelf [10] [0, 1] = .ok ([10, 0] : List Int) := by decide +kernel

end Linalg
