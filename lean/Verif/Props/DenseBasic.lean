import Verif.Proof.Vec

/-!
# Dense layout, blocks, transpose, products and stacking (C33 - C38)
-/

namespace Linalg
open Cpp

variable {α R : Type}

/-! ## Layout -/

/-- **C33.**  A well-formed matrix accepts every read in range, at the column-major address. -/
theorem C33_get [Zero α] (D : Dense α) (hD : D.WF) (i j : Int) (hi : 0 ≤ i) (hi' : i < D.rows) (hj : 0 ≤ j)
    (hj' : j < D.cols) :
    D.get i j = .ok (D.entry i j) ∧ rd D.data (i + j * D.rows) = .ok (D.entry i j) := by
  have h := hD.is_entry.get_eq i j hi hi' hj hj'
  refine ⟨h, ?_⟩
  unfold Dense.get at h
  rw [Dense.checkIdx_ok hi hi' hj hj', ok_bind] at h
  exact h

/-- **C33.**  After writing `(i, j)`, reading `(k, l)` gives the written value if `(k, l) = (i, j)` and the old
value otherwise. -/
theorem C33_put [Zero α] (D : Dense α) (hD : D.WF) (i j : Int) (x : α) (hi : 0 ≤ i) (hi' : i < D.rows) (hj : 0 ≤ j)
    (hj' : j < D.cols) :
    ∃ E, D.put i j x = .ok E ∧
      E.Is D.rows D.cols (fun k l => if k = i ∧ l = j then x else D.entry k l) := by
  obtain ⟨m, n, f, rfl⟩ := hD.exists_fn
  refine ⟨_, Dense.put_ofFn x hi hi' hj hj', (Dense.is_ofFn m n _).congr ?_⟩
  intro a b h1 h2 h3 h4
  rw [Dense.entry_ofFn h1 h2 h3 h4]

/-- **C33.**  Accesses out of range are rejected. -/
theorem C33_rejects (D : Dense α) (i j : Int) (x : α) (h : ¬ (0 ≤ i ∧ i < D.rows ∧ 0 ≤ j ∧ j < D.cols)) :
    D.get i j = .error .assertFail ∧ D.put i j x = .error .assertFail := by
  unfold Dense.get Dense.put
  rw [Dense.checkIdx_err h]
  exact ⟨rfl, rfl⟩

/-- **C33.**  Different positions have different addresses. -/
theorem C33_address_injective (D : Dense α) (i j k l : Int) (hi : 0 ≤ i) (hi' : i < D.rows) (hk : 0 ≤ k)
    (hk' : k < D.rows) (h : i + j * D.rows = k + l * D.rows) : i = k ∧ j = l := by
  have hr : 0 < D.rows := by omega
  have h1 : (i + j * D.rows) % D.rows = i := by
    rw [Int.add_mul_emod_self_right, Int.emod_eq_of_lt hi hi']
  have h2 : (k + l * D.rows) % D.rows = k := by
    rw [Int.add_mul_emod_self_right, Int.emod_eq_of_lt hk hk']
  have e : i = k := by rw [← h1, ← h2, h]
  refine ⟨e, ?_⟩
  subst e
  have : j * D.rows = l * D.rows := by omega
  exact Int.eq_of_mul_eq_mul_right (by omega) this

/-- C33: a 2 x 3 matrix. -/
example : ∃ D : Dense Int, D.WF ∧ D.get 1 2 = .ok 6 ∧ D.put 1 0 9 = .ok ⟨2, 3, [1, 9, 3, 4, 5, 6]⟩ :=
  ⟨⟨2, 3, [1, 2, 3, 4, 5, 6]⟩, by decide, by decide, by decide⟩

/-! ## Blocks -/

theorem Dense.checkRange_ok {D : Dense α} {si sj ei ej : Int} (h1 : 0 ≤ si) (h2 : si < D.rows) (h3 : 0 ≤ sj)
    (h4 : sj < D.cols) (h5 : si ≤ ei) (h6 : ei ≤ D.rows) (h7 : sj ≤ ej) (h8 : ej ≤ D.cols) :
    D.checkRange si sj ei ej = .ok () := by
  unfold checkRange
  rw [cassert_true ⟨h1, h2⟩, cassert_true ⟨h3, h4⟩, cassert_true ⟨by omega, h6⟩, cassert_true ⟨by omega, h8⟩,
    cassert_true ⟨h5, h7⟩]
  rfl

/-- **C34.**  `GetSubMatrix` returns the block, entry by entry, whatever the output matrix was before. -/
theorem C34_getSubMatrixInto [Zero α] (D out : Dense α) (hD : D.WF) (si sj ei ej : Int) (h1 : 0 ≤ si)
    (h2 : si < D.rows) (h3 : 0 ≤ sj) (h4 : sj < D.cols) (h5 : si ≤ ei) (h6 : ei ≤ D.rows) (h7 : sj ≤ ej)
    (h8 : ej ≤ D.cols) :
    ∃ E, D.getSubMatrixInto si sj ei ej out = .ok E ∧
      E.Is (ei - si) (ej - sj) (fun i j => D.entry (i + si) (j + sj)) := by
  have hD' := hD.is_entry
  obtain ⟨m, hm⟩ : ∃ m : Nat, ei - si = m := ⟨(ei - si).toNat, by omega⟩
  obtain ⟨n, hn⟩ : ∃ n : Nat, ej - sj = n := ⟨(ej - sj).toNat, by omega⟩
  obtain ⟨f, hf⟩ := Dense.setSize_ofFn out m n
  refine ⟨Dense.ofFn m n (fun i j => D.entry (i + si) (j + sj)), ?_, by rw [hm, hn]; exact Dense.is_ofFn m n _⟩
  unfold Dense.getSubMatrixInto
  rw [Dense.checkRange_ok h1 h2 h3 h4 h5 h6 h7 h8]
  simp only [ok_bind, hm, hn]
  rw [hf, ok_bind]
  refine Dense.fullLoop f _ (fun i j dense => _) ?_
  intro i j h a b c d _
  rw [hD'.get_eq (i + si) (j + sj) (by omega) (by omega) (by omega) (by omega), ok_bind]

/-- **C34.**  The form returning a new matrix. -/
theorem C34_getSubMatrix [Zero α] (D : Dense α) (hD : D.WF) (si sj ei ej : Int) (h1 : 0 ≤ si)
    (h2 : si < D.rows) (h3 : 0 ≤ sj) (h4 : sj < D.cols) (h5 : si ≤ ei) (h6 : ei ≤ D.rows) (h7 : sj ≤ ej)
    (h8 : ej ≤ D.cols) :
    ∃ E, D.getSubMatrix si sj ei ej = .ok E ∧
      E.Is (ei - si) (ej - sj) (fun i j => D.entry (i + si) (j + sj)) := by
  have z := Dense.zeros_ofFn (α := α) (ei - si).toNat (ej - sj).toNat
  rw [show (((ei - si).toNat : Nat) : Int) = ei - si by omega,
    show (((ej - sj).toNat : Nat) : Int) = ej - sj by omega] at z
  unfold Dense.getSubMatrix
  rw [z, ok_bind]
  exact C34_getSubMatrixInto D _ hD si sj ei ej h1 h2 h3 h4 h5 h6 h7 h8

/-- **C34.**  `GetSubMatrix(rows, cols)` with index lists: rows and columns may repeat and come in any order. -/
theorem C34_getSubMatrixIdxInto [Zero α] (D out : Dense α) (hD : D.WF) (rows cols : List Int)
    (hr : ∀ r ∈ rows, 0 ≤ r ∧ r < D.rows) (hc : ∀ c ∈ cols, 0 ≤ c ∧ c < D.cols) :
    ∃ E, D.getSubMatrixIdxInto rows cols out = .ok E ∧
      E.Is rows.length cols.length (fun i j => D.entry (vecAt rows i) (vecAt cols j)) := by
  have hD' := hD.is_entry
  obtain ⟨f, hf⟩ := Dense.setSize_ofFn out rows.length cols.length
  refine ⟨_, ?_, Dense.is_ofFn rows.length cols.length _⟩
  unfold Dense.getSubMatrixIdxInto
  rw [hf, ok_bind]
  simp only [Dense.fill_ofFn]
  rw [forUp_congr (g := fun j dense => forUp 0 (rows.length : Int) dense (fun i dense => do
      let col ← rd cols j
      let row ← rd rows i
      let x ← D.get row col
      dense.put i j x))]
  · refine Dense.fullLoop (m := rows.length) (n := cols.length) _ _ (fun i j dense => _) ?_
    intro i j h a b c d _
    have hr' := hr (vecAt rows i) (by rw [vecAt_int rows a b]; exact List.getElem_mem _)
    have hc' := hc (vecAt cols j) (by rw [vecAt_int cols c d]; exact List.getElem_mem _)
    rw [rd_vecAt cols c d, rd_vecAt rows a b]
    simp only [ok_bind]
    rw [hD'.get_eq _ _ hr'.1 hr'.2 hc'.1 hc'.2, ok_bind]
  · intro j s h0 h1
    rw [rd_vecAt cols h0 h1]
    rfl

/-- **C34.**  `SetSubMatrix` writes exactly the block. -/
theorem C34_setSubMatrix [Zero α] (D B : Dense α) (hD : D.WF) (hB : B.WF) (si sj : Int) (h1 : 0 ≤ si)
    (h2 : si < D.rows) (h3 : 0 ≤ sj) (h4 : sj < D.cols) (h5 : si + B.rows ≤ D.rows) (h6 : sj + B.cols ≤ D.cols) :
    ∃ E, D.setSubMatrix si sj B = .ok E ∧
      E.Is D.rows D.cols (fun i j =>
        if si ≤ i ∧ i < si + B.rows ∧ sj ≤ j ∧ j < sj + B.cols then B.entry (i - si) (j - sj)
        else D.entry i j) := by
  have hr := hB.rows_nonneg
  have hc := hB.cols_nonneg
  have hB' := hB.is_entry
  obtain ⟨M, N, f, rfl⟩ := hD.exists_fn
  obtain ⟨m, hm⟩ : ∃ m : Nat, B.rows = m := ⟨B.rows.toNat, by omega⟩
  obtain ⟨n, hn⟩ : ∃ n : Nat, B.cols = n := ⟨B.cols.toNat, by omega⟩
  simp only [Dense.ofFn_rows, Dense.ofFn_cols] at h2 h4 h5 h6
  rw [hm, hn] at hB'
  unfold Dense.setSubMatrix Dense.setSubMatrixRange
  rw [Dense.checkRange_ok h1 h2 h3 h4 (by omega) (by simpa using h5) (by omega) (by simpa using h6)]
  simp only [ok_bind, add_sub_cancel_left, hm, hn]
  refine ⟨_, Dense.blockLoop f (fun i j => B.entry i j) si sj h1 h3 (by omega) (by omega) _ ?_,
    (Dense.is_ofFn M N _).congr ?_⟩
  · intro i j h a b c d _
    rw [hB'.get_eq i j a b c d, ok_bind]
  · intro i j a b c d
    rw [Dense.entry_ofFn a b c d]

/-- **C34.**  `SetSubMatrixTranspose` writes exactly the transposed block. -/
theorem C34_setSubMatrixTranspose [Zero α] (D B : Dense α) (hD : D.WF) (hB : B.WF) (si sj : Int) (h1 : 0 ≤ si)
    (h2 : si < D.rows) (h3 : 0 ≤ sj) (h4 : sj < D.cols) (h5 : si + B.cols ≤ D.rows) (h6 : sj + B.rows ≤ D.cols) :
    ∃ E, D.setSubMatrixTranspose si sj B = .ok E ∧
      E.Is D.rows D.cols (fun i j =>
        if si ≤ i ∧ i < si + B.cols ∧ sj ≤ j ∧ j < sj + B.rows then B.entry (j - sj) (i - si)
        else D.entry i j) := by
  have hr := hB.rows_nonneg
  have hc := hB.cols_nonneg
  have hB' := hB.is_entry
  obtain ⟨M, N, f, rfl⟩ := hD.exists_fn
  obtain ⟨m, hm⟩ : ∃ m : Nat, B.cols = m := ⟨B.cols.toNat, by omega⟩
  obtain ⟨n, hn⟩ : ∃ n : Nat, B.rows = n := ⟨B.rows.toNat, by omega⟩
  simp only [Dense.ofFn_rows, Dense.ofFn_cols] at h2 h4 h5 h6
  rw [hm, hn] at hB'
  unfold Dense.setSubMatrixTranspose Dense.setSubMatrixTransposeRange
  rw [Dense.checkRange_ok h1 h2 h3 h4 (by omega) (by simpa using h5) (by omega) (by simpa using h6)]
  simp only [ok_bind, add_sub_cancel_left, hm, hn]
  refine ⟨_, Dense.blockLoop f (fun i j => B.entry j i) si sj h1 h3 (by omega) (by omega) _ ?_,
    (Dense.is_ofFn M N _).congr ?_⟩
  · intro i j h a b c d _
    rw [hB'.get_eq j i c d a b, ok_bind]
  · intro i j a b c d
    rw [Dense.entry_ofFn a b c d]

/-- **C34.**  Reading back a block that was just written returns it. -/
theorem C34_get_after_set [Zero α] (D B : Dense α) (hD : D.WF) (hB : B.WF) (si sj : Int) (h1 : 0 ≤ si)
    (h2 : si < D.rows) (h3 : 0 ≤ sj) (h4 : sj < D.cols) (h5 : si + B.rows ≤ D.rows) (h6 : sj + B.cols ≤ D.cols) :
    ∃ E, D.setSubMatrix si sj B = .ok E ∧
      E.getSubMatrix si sj (si + B.rows) (sj + B.cols) = .ok B := by
  have hr := hB.rows_nonneg
  have hc := hB.cols_nonneg
  obtain ⟨E, e1, e2⟩ := C34_setSubMatrix D B hD hB si sj h1 h2 h3 h4 h5 h6
  have er := e2.rows_eq
  have ec := e2.cols_eq
  obtain ⟨F, f1, f2⟩ := C34_getSubMatrix E e2.wf si sj (si + B.rows) (sj + B.cols) h1 (by omega) h3 (by omega)
    (by omega) (by omega) (by omega) (by omega)
  refine ⟨E, e1, ?_⟩
  rw [f1]
  simp only [add_sub_cancel_left] at f2
  congr 1
  refine Dense.Is.unique (f := fun i j => B.entry i j) (f2.congr ?_) hB.is_entry
  intro i j a b c d
  have := e2.get_eq (i + si) (j + sj) (by omega) (by omega) (by omega) (by omega)
  unfold Dense.entry at this ⊢
  rw [this, if_pos (by omega)]
  simp

/-- **C34.**  Writing back a block that was just read changes nothing. -/
theorem C34_set_after_get [Zero α] (D : Dense α) (hD : D.WF) (si sj ei ej : Int) (h1 : 0 ≤ si)
    (h2 : si < D.rows) (h3 : 0 ≤ sj) (h4 : sj < D.cols) (h5 : si ≤ ei) (h6 : ei ≤ D.rows) (h7 : sj ≤ ej)
    (h8 : ej ≤ D.cols) :
    ∃ B, D.getSubMatrix si sj ei ej = .ok B ∧ D.setSubMatrix si sj B = .ok D := by
  obtain ⟨B, b1, b2⟩ := C34_getSubMatrix D hD si sj ei ej h1 h2 h3 h4 h5 h6 h7 h8
  have er := b2.rows_eq
  have ec := b2.cols_eq
  obtain ⟨E, e1, e2⟩ := C34_setSubMatrix D B hD b2.wf si sj h1 h2 h3 h4 (by omega) (by omega)
  refine ⟨B, b1, ?_⟩
  rw [e1]
  congr 1
  refine Dense.Is.unique (e2.congr ?_) hD.is_entry
  intro i j a b c d
  split
  · rename_i h
    have := b2.get_eq (i - si) (j - sj) (by omega) (by omega) (by omega) (by omega)
    unfold Dense.entry
    rw [this]
    simp [Dense.entry]
  · rfl

/-- **C34.**  `AddSubMatrix(rows, cols, B)` adds `B(p, q)` to position `(rows[p], cols[q])`, for all `p` and `q`
(positions listed several times receive all their contributions) and changes nothing else. -/
theorem C34_addSubMatrix [AddCommMonoid R] (D B : Dense R) (hD : D.WF) (hB : B.WF) (rows cols : List Int)
    (hr : (rows.length : Int) = B.rows) (hc : (cols.length : Int) = B.cols)
    (hri : ∀ r ∈ rows, 0 ≤ r ∧ r < D.rows) (hci : ∀ c ∈ cols, 0 ≤ c ∧ c < D.cols) :
    ∃ E, D.addSubMatrix rows cols B = .ok E ∧
      E.Is D.rows D.cols (fun a b => D.entry a b +
        ∑ q ∈ Finset.Ico 0 B.cols, ∑ p ∈ Finset.Ico 0 B.rows,
          if vecAt rows p = a ∧ vecAt cols q = b then B.entry p q else 0) := by
  have hB' := hB.is_entry
  obtain ⟨M, N, f, rfl⟩ := hD.exists_fn
  simp only [Dense.ofFn_rows, Dense.ofFn_cols] at hri hci ⊢
  unfold Dense.addSubMatrix
  rw [cassert_true hr, cassert_true hc]
  simp only [ok_bind]
  rw [← hr, ← hc] at hB' ⊢
  refine ⟨Dense.ofFn M N (fun a b => f a b +
        ∑ q ∈ Finset.Ico 0 (cols.length : Int), ∑ p ∈ Finset.Ico 0 (rows.length : Int),
          if vecAt rows p = a ∧ vecAt cols q = b then B.entry p q else 0), ?_, (Dense.is_ofFn M N _).congr ?_⟩
  · have e0 : Dense.ofFn M N f = Dense.ofFn M N (fun a b => f a b +
        ∑ q ∈ Finset.Ico (0 : Int) 0, ∑ p ∈ Finset.Ico 0 (rows.length : Int),
          if vecAt rows p = a ∧ vecAt cols q = b then B.entry p q else 0) := by
      congr 1; funext a b; simp
    rw [e0]
    refine forUp_seq (by omega) (fun j => Dense.ofFn M N (fun a b => f a b +
        ∑ q ∈ Finset.Ico (0 : Int) j, ∑ p ∈ Finset.Ico 0 (rows.length : Int),
          if vecAt rows p = a ∧ vecAt cols q = b then B.entry p q else 0)) ?_
    intro j j0 j1
    simp only [sum_Ico_succ _ j0]
    generalize hg : (fun a b => f a b +
        ∑ q ∈ Finset.Ico (0 : Int) j, ∑ p ∈ Finset.Ico 0 (rows.length : Int),
          if vecAt rows p = a ∧ vecAt cols q = b then B.entry p q else 0) = g
    have hg' : ∀ a b, f a b +
        ∑ q ∈ Finset.Ico (0 : Int) j, ∑ p ∈ Finset.Ico 0 (rows.length : Int),
          (if vecAt rows p = a ∧ vecAt cols q = b then B.entry p q else 0) = g a b := by
      intro a b; rw [← hg]
    simp only [← add_assoc, hg']
    have e1 : Dense.ofFn M N g = Dense.ofFn M N (fun a b => g a b +
        ∑ p ∈ Finset.Ico (0 : Int) 0, if vecAt rows p = a ∧ vecAt cols j = b then B.entry p j else 0) := by
      congr 1; funext a b; simp
    rw [e1]
    refine forUp_seq (by omega) (fun i => Dense.ofFn M N (fun a b => g a b +
        ∑ p ∈ Finset.Ico (0 : Int) i, if vecAt rows p = a ∧ vecAt cols j = b then B.entry p j else 0)) ?_
    intro i i0 i1
    have hr' := hri (vecAt rows i) (by rw [vecAt_int rows i0 i1]; exact List.getElem_mem _)
    have hc' := hci (vecAt cols j) (by rw [vecAt_int cols j0 j1]; exact List.getElem_mem _)
    rw [rd_vecAt rows i0 i1, rd_vecAt cols j0 j1]
    simp only [ok_bind]
    rw [hB'.get_eq i j i0 i1 j0 j1]
    simp only [ok_bind]
    rw [Dense.get_ofFn hr'.1 hr'.2 hc'.1 hc'.2, ok_bind, Dense.put_ofFn _ hr'.1 hr'.2 hc'.1 hc'.2]
    congr 1
    apply Dense.ofFn_congr
    intro a b _ _ _ _
    rw [sum_Ico_succ _ i0]
    by_cases h : a = vecAt rows i ∧ b = vecAt cols j
    · rw [if_pos h, if_pos ⟨h.1.symm, h.2.symm⟩, h.1, h.2, add_assoc]
    · rw [if_neg h, if_neg (fun e => h ⟨e.1.symm, e.2.symm⟩), add_zero]
  · intro a b h1 h2 h3 h4
    rw [Dense.entry_ofFn h1 h2 h3 h4]

/-- **C34.**  `GetCol`, `GetRow` copy the column or row into a vector of the right size. -/
theorem C34_getCol_getRow [Zero α] (D : Dense α) (hD : D.WF) (k : Int) (v : List α) (h0 : 0 ≤ k) :
    (k < D.cols → (v.length : Int) = D.rows →
      ∃ v', D.getColInto k v = .ok v' ∧ VecIs v' D.rows (fun i => D.entry i k)) ∧
    (k < D.rows → (v.length : Int) = D.cols →
      ∃ v', D.getRowInto k v = .ok v' ∧ VecIs v' D.cols (fun j => D.entry k j)) := by
  have hD' := hD.is_entry
  constructor
  · intro hk hv
    refine ⟨vecFn v.length (fun i => D.entry i k), ?_, by rw [← hv]; exact is_vecFn _ _⟩
    unfold Dense.getColInto
    rw [cassert_true ⟨h0, hk⟩, cassert_true hv]
    simp only [ok_bind]
    rw [← hv, eq_vecFn_vecAt v, length_vecFn]
    apply fillLoop
    intro i h a b _
    rw [hD'.get_eq i k a (by omega) h0 hk, ok_bind, vwr_eq_wr (by simpa using b)]
  · intro hk hv
    refine ⟨vecFn v.length (fun i => D.entry k i), ?_, by rw [← hv]; exact is_vecFn _ _⟩
    unfold Dense.getRowInto
    rw [cassert_true ⟨h0, hk⟩, cassert_true hv]
    simp only [ok_bind]
    rw [← hv, eq_vecFn_vecAt v, length_vecFn]
    apply fillLoop
    intro i h a b _
    rw [hD'.get_eq k i h0 hk a (by omega), ok_bind, vwr_eq_wr (by simpa using b)]

/-- **C34.**  `SetCol`, `SetRow` overwrite exactly that column or row. -/
theorem C34_setCol_setRow [Zero α] (D : Dense α) (hD : D.WF) (k : Int) (v : List α) (h0 : 0 ≤ k) :
    (k < D.cols → (v.length : Int) = D.rows →
      ∃ E, D.setColVec k v = .ok E ∧
        E.Is D.rows D.cols (fun i j => if j = k then vecAt v i else D.entry i j)) ∧
    (k < D.rows → (v.length : Int) = D.cols →
      ∃ E, D.setRowVec k v = .ok E ∧
        E.Is D.rows D.cols (fun i j => if i = k then vecAt v j else D.entry i j)) := by
  obtain ⟨M, N, f, rfl⟩ := hD.exists_fn
  simp only [Dense.ofFn_rows, Dense.ofFn_cols]
  constructor
  · intro hk hv
    refine ⟨Dense.ofFn M N (fun a b => if b = k ∧ a < (M : Int) then vecAt v a else f a b), ?_, ?_⟩
    · unfold Dense.setColVec
      rw [cassert_true ⟨h0, hk⟩, cassert_true (by simpa using hv)]
      simp only [ok_bind, Dense.ofFn_rows]
      have e0 : Dense.ofFn M N f = Dense.ofFn M N (fun a b => if b = k ∧ a < (0 : Int) then vecAt v a else f a b) := by
        apply Dense.ofFn_congr; intros; rw [if_neg (by omega)]
      rw (occs := .pos [1]) [e0]
      refine forUp_seq (by omega) (fun i => Dense.ofFn M N (fun a b => if b = k ∧ a < i then vecAt v a else f a b)) ?_
      intro i i0 i1
      rw [vrd_vecAt v i0 (by omega), ok_bind, Dense.put_ofFn _ i0 i1 h0 hk]
      congr 1
      apply Dense.ofFn_congr
      intro a b _ _ _ _
      by_cases h : a = i ∧ b = k
      · rw [if_pos h, if_pos (by omega), h.1]
      · rw [if_neg h]; congr 1; apply propext; omega
    · refine (Dense.is_ofFn M N _).congr ?_
      intro i j a b c d
      rw [Dense.entry_ofFn a b c d]
      congr 1; apply propext; constructor <;> intro h <;> omega
  · intro hk hv
    refine ⟨Dense.ofFn M N (fun a b => if a = k ∧ b < (N : Int) then vecAt v b else f a b), ?_, ?_⟩
    · unfold Dense.setRowVec
      rw [cassert_true ⟨h0, hk⟩, cassert_true (by simpa using hv)]
      simp only [ok_bind, Dense.ofFn_cols]
      have e0 : Dense.ofFn M N f = Dense.ofFn M N (fun a b => if a = k ∧ b < (0 : Int) then vecAt v b else f a b) := by
        apply Dense.ofFn_congr; intros; rw [if_neg (by omega)]
      rw (occs := .pos [1]) [e0]
      refine forUp_seq (by omega) (fun j => Dense.ofFn M N (fun a b => if a = k ∧ b < j then vecAt v b else f a b)) ?_
      intro j i0 i1
      rw [vrd_vecAt v i0 (by omega), ok_bind, Dense.put_ofFn _ h0 hk i0 i1]
      congr 1
      apply Dense.ofFn_congr
      intro a b _ _ _ _
      by_cases h : a = k ∧ b = j
      · rw [if_pos h, if_pos (by omega), h.2]
      · rw [if_neg h]; congr 1; apply propext; omega
    · refine (Dense.is_ofFn M N _).congr ?_
      intro i j a b c d
      rw [Dense.entry_ofFn a b c d]
      congr 1; apply propext; constructor <;> intro h <;> omega

/-- C34: blocks of a 3 x 2 matrix. -/
example : ∃ D : Dense Int, D.WF ∧ D.getSubMatrix 1 0 3 2 = .ok ⟨2, 2, [2, 3, 5, 6]⟩ ∧
    D.setSubMatrix 1 1 ⟨2, 1, [8, 9]⟩ = .ok ⟨3, 2, [1, 2, 3, 4, 8, 9]⟩ ∧
    D.addSubMatrix [2, 2] [0] ⟨2, 1, [10, 20]⟩ = .ok ⟨3, 2, [1, 2, 33, 4, 5, 6]⟩ :=
  ⟨⟨3, 2, [1, 2, 3, 4, 5, 6]⟩, by decide, by decide, by decide, by decide⟩

/-! ## Transpose -/

/-- **C35.** -/
theorem C35_transpose [Zero α] (D : Dense α) (hD : D.WF) :
    ∃ E, D.transpose = .ok E ∧ E.Is D.cols D.rows (fun j i => D.entry i j) := by
  have hr := hD.rows_nonneg
  have hc := hD.cols_nonneg
  have hD' := hD.is_entry
  obtain ⟨m, hm⟩ : ∃ m : Nat, D.rows = m := ⟨D.rows.toNat, by omega⟩
  obtain ⟨n, hn⟩ : ∃ n : Nat, D.cols = n := ⟨D.cols.toNat, by omega⟩
  rw [hm, hn] at hD' ⊢
  refine ⟨_, ?_, Dense.is_ofFn n m _⟩
  unfold Dense.transpose Dense.transposeInto
  rw [hm, hn, Dense.zeros_ofFn, ok_bind]
  obtain ⟨f, hf⟩ := Dense.setSize_ofFn (Dense.ofFn n m (fun _ _ => (0 : α))) n m
  rw [hf, ok_bind]
  refine Dense.fullLoop f _ (fun j i out => _) ?_
  intro j i h a b c d _
  rw [hD'.get_eq i j c d a b, ok_bind]

/-- **C35.**  Transposing twice gives back the identical matrix. -/
theorem C35_transpose_twice [Zero α] (D : Dense α) (hD : D.WF) :
    ∃ E, D.transpose = .ok E ∧ E.transpose = .ok D := by
  obtain ⟨E, e1, e2⟩ := C35_transpose D hD
  obtain ⟨F, f1, f2⟩ := C35_transpose E e2.wf
  refine ⟨E, e1, ?_⟩
  rw [f1]
  congr 1
  rw [e2.rows_eq, e2.cols_eq] at f2
  refine Dense.Is.unique (f2.congr ?_) hD.is_entry
  intro i j a b c d
  have := e2.get_eq j i c d a b
  unfold Dense.entry at this ⊢
  rw [this]

/-- C35: a 2 x 3 matrix. -/
example : ∃ D : Dense Int, D.WF ∧ D.transpose = .ok ⟨3, 2, [1, 3, 5, 2, 4, 6]⟩ :=
  ⟨⟨2, 3, [1, 2, 3, 4, 5, 6]⟩, by decide, by decide⟩

/-! ## Matrix-vector products -/

/-- **C36.**  `Mult(x, y)`, whatever `y` held before. -/
theorem C36_mult [NonUnitalNonAssocSemiring R] (D : Dense R) (hD : D.WF) (x y : List R)
    (hx : (x.length : Int) = D.cols) (hy : (y.length : Int) = D.rows) :
    ∃ y', D.mult x y = .ok y' ∧
      VecIs y' D.rows (fun i => ∑ j ∈ Finset.Ico 0 D.cols, D.entry i j * vecAt x j) := by
  have hD' := hD.is_entry
  have hcn := hD.cols_nonneg
  refine ⟨vecFn y.length (fun i => ∑ j ∈ Finset.Ico 0 D.cols, D.entry i j * vecAt x j), ?_,
    by rw [← hy]; exact is_vecFn _ _⟩
  unfold Dense.mult
  rw [cassert_true hx, cassert_true hy]
  simp only [ok_bind, replicate_vecFn]
  have e0 : vecFn y.length (fun _ => (0 : R))
      = vecFn y.length (fun i => ∑ j ∈ Finset.Ico (0 : Int) 0, D.entry i j * vecAt x j) := by
    apply vecFn_congr; intros; simp
  rw [e0]
  refine forUp_seq hcn (fun k => vecFn y.length (fun i => ∑ j ∈ Finset.Ico (0 : Int) k, D.entry i j * vecAt x j)) ?_
  intro k k0 k1
  rw [← hy]
  refine fillLoop _ _ _ ?_
  intro i h a b e
  rw [hD'.get_eq i k a (by omega) k0 k1]
  simp only [ok_bind]
  rw [vrd_vecAt x k0 (by omega), ok_bind, vrd_vecFn a b, ok_bind, vwr_eq_wr (by simpa using b), e,
    sum_Ico_succ _ k0]

/-- **C36.**  `MultAT(x, y)`, whatever `y` held before. -/
theorem C36_multAT [NonUnitalNonAssocSemiring R] (D : Dense R) (hD : D.WF) (x y : List R)
    (hx : (x.length : Int) = D.rows) (hy : (y.length : Int) = D.cols) :
    ∃ y', D.multAT x y = .ok y' ∧
      VecIs y' D.cols (fun j => ∑ i ∈ Finset.Ico 0 D.rows, D.entry i j * vecAt x i) := by
  have hD' := hD.is_entry
  have hrn := hD.rows_nonneg
  refine ⟨vecFn y.length (fun j => ∑ i ∈ Finset.Ico 0 D.rows, D.entry i j * vecAt x i), ?_,
    by rw [← hy]; exact is_vecFn _ _⟩
  unfold Dense.multAT
  rw [cassert_true hx, cassert_true hy]
  simp only [ok_bind]
  rw [← hy, eq_vecFn_vecAt y, length_vecFn]
  apply fillLoop
  intro j h a b _
  rw [sumLoop hrn (fun i => D.entry i j * vecAt x i) _ 0 (by
    intro i v i0 i1
    rw [hD'.get_eq i j i0 i1 a (by omega), ok_bind, vrd_vecAt x i0 (by omega), ok_bind]), ok_bind, zero_add,
    vwr_eq_wr (by simpa using b)]

/-- **C36.**  Vectors of the wrong size are rejected. -/
theorem C36_rejects [NonUnitalNonAssocSemiring R] (D : Dense R) (x y : List R) :
    (¬ ((x.length : Int) = D.cols ∧ (y.length : Int) = D.rows) → D.mult x y = .error .assertFail) ∧
    (¬ ((x.length : Int) = D.rows ∧ (y.length : Int) = D.cols) → D.multAT x y = .error .assertFail) := by
  unfold Dense.mult Dense.multAT
  constructor
  · intro h
    by_cases h1 : (x.length : Int) = D.cols
    · rw [cassert_true h1, cassert_false (fun h2 => h ⟨h1, h2⟩)]; rfl
    · rw [cassert_false h1]; rfl
  · intro h
    by_cases h1 : (x.length : Int) = D.rows
    · rw [cassert_true h1, cassert_false (fun h2 => h ⟨h1, h2⟩)]; rfl
    · rw [cassert_false h1]; rfl

/-- **C36.**  The forms that return a new vector. -/
theorem C36_multVec [NonUnitalNonAssocSemiring R] (D : Dense R) (hD : D.WF) (x : List R) :
    ((x.length : Int) = D.cols → ∃ y', D.multVec x = .ok y' ∧
      VecIs y' D.rows (fun i => ∑ j ∈ Finset.Ico 0 D.cols, D.entry i j * vecAt x j)) ∧
    ((x.length : Int) = D.rows → ∃ y', D.multATVec x = .ok y' ∧
      VecIs y' D.cols (fun j => ∑ i ∈ Finset.Ico 0 D.rows, D.entry i j * vecAt x i)) := by
  have hr := hD.rows_nonneg
  have hc := hD.cols_nonneg
  unfold Dense.multVec Dense.multATVec
  constructor
  · intro h
    rw [mkVec_int hr, ok_bind]
    exact C36_mult D hD x _ h (by simp; omega)
  · intro h
    rw [mkVec_int hc, ok_bind]
    exact C36_multAT D hD x _ h (by simp; omega)

/-- C36: a 2 x 3 matrix and a dirty output. -/
example : ∃ D : Dense Int, D.WF ∧ D.mult [1, 10, 100] [7, 7] = .ok [531, 642] ∧
    D.multAT [1, 10] [7, 7, 7] = .ok [21, 43, 65] :=
  ⟨⟨2, 3, [1, 2, 3, 4, 5, 6]⟩, by decide, by decide, by decide⟩

/-! ## Matrix-matrix products -/

theorem Dense.rd_data [Zero α] {D : Dense α} (hD : D.WF) {i j : Int} (hi : 0 ≤ i) (hi' : i < D.rows) (hj : 0 ≤ j)
    (hj' : j < D.cols) : rd D.data (i + j * D.rows) = .ok (D.entry i j) := (C33_get D hD i j hi hi' hj hj').2

/-- The entries of `op(D)`. -/
def Dense.opEntry [Zero α] (D : Dense α) (t : Bool) (i l : Int) : α := if t then D.entry l i else D.entry i l

/-- Rows and columns of `op(D)`. -/
def Dense.opRows (D : Dense α) (t : Bool) : Int := if t then D.cols else D.rows
/-- Columns of `op(D)`. -/
def Dense.opCols (D : Dense α) (t : Bool) : Int := if t then D.rows else D.cols

theorem Dense.wr_data_ofFn {m n : Nat} {f : Int → Int → α} {i j : Int} (x : α) (hi : 0 ≤ i) (hi' : i < m)
    (hj : 0 ≤ j) (hj' : j < n) :
    wr (ofFn m n f).data (i + j * (m : Int)) x
      = .ok (ofFn m n (fun a b => if a = i ∧ b = j then x else f a b)).data := by
  have h := put_ofFn (f := f) x hi hi' hj hj'
  unfold put at h
  rw [checkIdx_ok hi hi' hj hj', ok_bind] at h
  rw [ofFn_rows] at h
  cases hw : wr (ofFn m n f).data (i + j * (m : Int)) x with
  | error e => rw [hw] at h; cases h
  | ok d =>
    rw [hw] at h
    have := congrArg Dense.data (Except.ok.inj h)
    rw [← this]

/-- `gemm` computes `op(A) op(B)` when every leading dimension is positive; of `op(B)` only the rows that `op(A)` has columns for are used. -/
theorem gemm_eq [NonUnitalNonAssocSemiring R] (A B C : Dense R) (hA : A.WF) (hB : B.WF) (s t : Bool)
    (hk : A.opCols s ≤ B.opRows t) (hA1 : 1 ≤ A.rows) (hB1 : 1 ≤ B.rows) (hC1 : 1 ≤ A.opRows s) :
    ∃ E, A.gemm B C s t = .ok E ∧ E.Is (A.opRows s) (B.opCols t) (fun i j =>
      ∑ l ∈ Finset.Ico 0 (A.opCols s), A.opEntry s i l * B.opEntry t l j) := by
  have ar := hA.rows_nonneg
  have ac := hA.cols_nonneg
  have br := hB.rows_nonneg
  have bc := hB.cols_nonneg
  have hm0 : 0 ≤ A.opRows s := by unfold Dense.opRows; split <;> omega
  have hn0 : 0 ≤ B.opCols t := by unfold Dense.opCols; split <;> omega
  have hk0 : 0 ≤ A.opCols s := by unfold Dense.opCols; split <;> omega
  obtain ⟨m, hm⟩ : ∃ m : Nat, A.opRows s = m := ⟨(A.opRows s).toNat, by omega⟩
  obtain ⟨n, hn⟩ : ∃ n : Nat, B.opCols t = n := ⟨(B.opCols t).toNat, by omega⟩
  obtain ⟨f, hf⟩ := Dense.setSize_ofFn C m n
  refine ⟨Dense.ofFn m n (fun i j => ∑ l ∈ Finset.Ico 0 (A.opCols s), A.opEntry s i l * B.opEntry t l j), ?_,
    by rw [hm, hn]; exact Dense.is_ofFn m n _⟩
  unfold Dense.gemm
  have e1 : (if s then A.cols else A.rows) = A.opRows s := rfl
  have e2 : (if t then B.rows else B.cols) = B.opCols t := rfl
  have e3 : (if s then A.rows else A.cols) = A.opCols s := rfl
  simp only [e1, e2, e3]
  rw [hm, hn, hf, ok_bind]
  simp only [Dense.ofFn_rows]
  have hread : ∀ (i l : Int), 0 ≤ i → i < A.opRows s → 0 ≤ l → l < A.opCols s →
      Dense.blasAt s A.data A.rows i l = .ok (A.opEntry s i l) := by
    intro i l a b c d
    unfold Dense.blasAt Dense.opEntry
    unfold Dense.opRows at b
    unfold Dense.opCols at d
    cases s
    · simp only [Bool.false_eq_true, if_false] at *
      exact Dense.rd_data hA a b c d
    · simp only [if_true] at *
      exact Dense.rd_data hA c d a b
  have hreadB : ∀ (i l : Int), 0 ≤ i → i < B.opRows t → 0 ≤ l → l < B.opCols t →
      Dense.blasAt t B.data B.rows i l = .ok (B.opEntry t i l) := by
    intro i l a b c d
    unfold Dense.blasAt Dense.opEntry
    unfold Dense.opRows at b
    unfold Dense.opCols at d
    cases t
    · simp only [Bool.false_eq_true, if_false] at *
      exact Dense.rd_data hB a b c d
    · simp only [if_true] at *
      exact Dense.rd_data hB c d a b
  have hl1 : A.rows ≥ (if s then A.opCols s else (m : Int)) := by
    rw [← hm]; unfold Dense.opCols Dense.opRows; cases s <;> simp
  have hl2 : B.rows ≥ (if t then (n : Int) else A.opCols s) := by
    unfold Dense.opRows at hk
    rw [← hn]; unfold Dense.opCols at hk ⊢; cases t <;> simp at hk ⊢; exact hk
  unfold Dense.dgemm
  rw [cverify_true ⟨by omega, by omega, hk0⟩, cverify_true ⟨hA1, hl1⟩, cverify_true ⟨hB1, hl2⟩,
    cverify_true ⟨by omega, by omega⟩]
  simp only [ok_bind]
  let F : Int → Int → R := fun i j => ∑ l ∈ Finset.Ico 0 (A.opCols s), A.opEntry s i l * B.opEntry t l j
  have hloop : forUp 0 (n : Int) (Dense.ofFn m n f).data (fun j C =>
      forUp 0 (m : Int) C (fun i C => do
        let v ← forUp 0 (A.opCols s) (0 : R) (fun l v => do
          let a ← Dense.blasAt s A.data A.rows i l
          let b ← Dense.blasAt t B.data B.rows l j
          .ok (v + a * b))
        wr C (i + j * (m : Int)) v)) = .ok (Dense.ofFn m n F).data := by
    have e0 : Dense.ofFn m n f = Dense.ofFn m n (fun a b => if b < 0 then F a b else f a b) := by
      apply Dense.ofFn_congr; intros; rw [if_neg (by omega)]
    have e1 : Dense.ofFn m n F = Dense.ofFn m n (fun a b => if b < (n : Int) then F a b else f a b) := by
      apply Dense.ofFn_congr; intros; rw [if_pos (by omega)]
    rw [e0, e1]
    refine forUp_seq (by omega) (fun j => (Dense.ofFn m n (fun a b => if b < j then F a b else f a b)).data) ?_
    intro j j0 j1
    have e2 : Dense.ofFn m n (fun a b => if b < j then F a b else f a b)
        = Dense.ofFn m n (fun a b => if b < j ∨ (b = j ∧ a < 0) then F a b else f a b) := by
      apply Dense.ofFn_congr; intros; congr 1; apply propext; omega
    have e3 : Dense.ofFn m n (fun a b => if b < j + 1 then F a b else f a b)
        = Dense.ofFn m n (fun a b => if b < j ∨ (b = j ∧ a < (m : Int)) then F a b else f a b) := by
      apply Dense.ofFn_congr; intros; congr 1; apply propext; omega
    rw [e2, e3]
    refine forUp_seq (by omega)
      (fun i => (Dense.ofFn m n (fun a b => if b < j ∨ (b = j ∧ a < i) then F a b else f a b)).data) ?_
    intro i i0 i1
    rw [sumLoop hk0 (fun l => A.opEntry s i l * B.opEntry t l j) _ 0 (by
      intro l v l0 l1
      rw [hread i l i0 (by omega) l0 l1, ok_bind, hreadB l j l0 (by omega) j0 (by omega), ok_bind]), ok_bind,
      zero_add, Dense.wr_data_ofFn _ i0 i1 j0 j1]
    congr 2
    apply Dense.ofFn_congr
    intro a b _ _ _ _
    by_cases h : a = i ∧ b = j
    · rw [if_pos h, if_pos (by omega), h.1, h.2]
    · rw [if_neg h]; congr 1; apply propext; omega
  rw [hloop, ok_bind]
  rfl

/-- **C37.**  The four products, given conforming shapes and at least one row in each operand and in the result;
the output object may have held anything. -/
theorem C37_mult [NonUnitalNonAssocSemiring R] (A B C : Dense R) (hA : A.WF) (hB : B.WF) (hA1 : 1 ≤ A.rows)
    (hB1 : 1 ≤ B.rows) :
    (A.cols = B.rows → ∃ E, A.multDInto B C = .ok E ∧ E.Is A.rows B.cols (fun i j =>
      ∑ l ∈ Finset.Ico 0 A.cols, A.entry i l * B.entry l j)) ∧
    (A.rows = B.rows → 1 ≤ A.cols → ∃ E, A.multATDInto B C = .ok E ∧ E.Is A.cols B.cols (fun i j =>
      ∑ l ∈ Finset.Ico 0 A.rows, A.entry l i * B.entry l j)) ∧
    (A.cols = B.cols → ∃ E, A.multBTDInto B C = .ok E ∧ E.Is A.rows B.rows (fun i j =>
      ∑ l ∈ Finset.Ico 0 A.cols, A.entry i l * B.entry j l)) ∧
    (A.rows = B.cols → 1 ≤ A.cols → ∃ E, A.multABTDInto B C = .ok E ∧ E.Is A.cols B.rows (fun i j =>
      ∑ l ∈ Finset.Ico 0 A.rows, A.entry l i * B.entry j l)) := by
  refine ⟨fun h => ?_, fun h h' => ?_, fun h => ?_, fun h h' => ?_⟩
  · unfold Dense.multDInto
    rw [cassert_true h, ok_bind]
    exact gemm_eq A B C hA hB false false h.le hA1 hB1 hA1
  · unfold Dense.multATDInto
    rw [cassert_true h, ok_bind]
    exact gemm_eq A B C hA hB true false h.le hA1 hB1 h'
  · unfold Dense.multBTDInto
    rw [cassert_true h, ok_bind]
    exact gemm_eq A B C hA hB false true h.le hA1 hB1 hA1
  · unfold Dense.multABTDInto
    rw [cassert_true h, ok_bind]
    exact gemm_eq A B C hA hB true true h.le hA1 hB1 h'

/-- **C37.**  The forms that return a new matrix. -/
theorem C37_mult_new [NonUnitalNonAssocSemiring R] (A B : Dense R) (hA : A.WF) (hB : B.WF) (hA1 : 1 ≤ A.rows)
    (hB1 : 1 ≤ B.rows) :
    (A.cols = B.rows → ∃ E, A.multD B = .ok E ∧ E.Is A.rows B.cols (fun i j =>
      ∑ l ∈ Finset.Ico 0 A.cols, A.entry i l * B.entry l j)) ∧
    (A.rows = B.rows → 1 ≤ A.cols → ∃ E, A.multATD B = .ok E ∧ E.Is A.cols B.cols (fun i j =>
      ∑ l ∈ Finset.Ico 0 A.rows, A.entry l i * B.entry l j)) ∧
    (A.cols = B.cols → ∃ E, A.multBTD B = .ok E ∧ E.Is A.rows B.rows (fun i j =>
      ∑ l ∈ Finset.Ico 0 A.cols, A.entry i l * B.entry j l)) ∧
    (A.rows = B.cols → 1 ≤ A.cols → ∃ E, A.multABTD B = .ok E ∧ E.Is A.cols B.rows (fun i j =>
      ∑ l ∈ Finset.Ico 0 A.rows, A.entry l i * B.entry j l)) := by
  have z : ∀ r c : Int, 0 ≤ r → 0 ≤ c → ∃ Z : Dense R, Dense.zeros r c = .ok Z := by
    intro r c h1 h2
    have z := Dense.zeros_ofFn (α := R) r.toNat c.toNat
    rw [show ((r.toNat : Nat) : Int) = r by omega, show ((c.toNat : Nat) : Int) = c by omega] at z
    exact ⟨_, z⟩
  have ar := hA.rows_nonneg
  have ac := hA.cols_nonneg
  have br := hB.rows_nonneg
  have bc := hB.cols_nonneg
  obtain ⟨Z1, z1⟩ := z A.rows B.cols ar bc
  obtain ⟨Z2, z2⟩ := z A.cols B.cols ac bc
  obtain ⟨Z3, z3⟩ := z A.rows B.rows ar br
  obtain ⟨Z4, z4⟩ := z A.cols B.rows ac br
  unfold Dense.multD Dense.multATD Dense.multBTD Dense.multABTD
  rw [z1, z2, z3, z4]
  exact ⟨(C37_mult A B Z1 hA hB hA1 hB1).1, (C37_mult A B Z2 hA hB hA1 hB1).2.1,
    (C37_mult A B Z3 hA hB hA1 hB1).2.2.1, (C37_mult A B Z4 hA hB hA1 hB1).2.2.2⟩

/-- **C37.**  Non-conforming shapes are rejected. -/
theorem C37_rejects [NonUnitalNonAssocSemiring R] (A B C : Dense R) :
    (A.cols ≠ B.rows → A.multDInto B C = .error .assertFail) ∧
    (A.rows ≠ B.rows → A.multATDInto B C = .error .assertFail) ∧
    (A.cols ≠ B.cols → A.multBTDInto B C = .error .assertFail) ∧
    (A.rows ≠ B.cols → A.multABTDInto B C = .error .assertFail) := by
  unfold Dense.multDInto Dense.multATDInto Dense.multBTDInto Dense.multABTDInto
  exact ⟨fun h => by rw [cassert_false h]; rfl, fun h => by rw [cassert_false h]; rfl,
    fun h => by rw [cassert_false h]; rfl, fun h => by rw [cassert_false h]; rfl⟩

/-- **C37.**  The "at least one row" condition cannot be dropped: a conforming product with an empty operand is
handed to `dgemm` with leading dimension 0, which it reports as an illegal argument. -/
theorem C37_empty_operand :
    ∃ A B : Dense Int, A.WF ∧ B.WF ∧ A.cols = B.rows ∧ A.multD B = .error .threw :=
  ⟨⟨2, 0, []⟩, ⟨0, 3, []⟩, by decide, by decide, by decide, by decide⟩

/-- C37: a 2 x 3 by 3 x 1 product and a transposed one. -/
example : ∃ A B : Dense Int, A.WF ∧ B.WF ∧ 1 ≤ A.rows ∧ 1 ≤ B.rows ∧ A.cols = B.rows ∧
    A.multD B = .ok ⟨2, 1, [531, 642]⟩ ∧ A.multATD A = .ok ⟨3, 3, [5, 11, 17, 11, 25, 39, 17, 39, 61]⟩ :=
  ⟨⟨2, 3, [1, 2, 3, 4, 5, 6]⟩, ⟨3, 1, [1, 10, 100]⟩, by decide, by decide, by decide, by decide, by decide,
    by decide, by decide⟩

/-! ## Stacking -/

/-- Entry `(i, j)` of the matrices of a list written side by side. -/
def sideBySide [Zero α] : List (Dense α) → Int → Int → α
  | [], _, _ => 0
  | D :: ds, i, j => if j < D.cols then D.entry i j else sideBySide ds i (j - D.cols)

/-- Total number of columns. -/
def totalCols (ds : List (Dense α)) : Int := (ds.map Dense.cols).sum

theorem sumCols_eq (ds : List (Dense α)) : Dense.sumCols ds = totalCols ds := by
  unfold Dense.sumCols totalCols
  rw [foldl_add_eq, zero_add]

theorem totalCols_nonneg {ds : List (Dense α)} (h : ∀ D ∈ ds, D.WF) : 0 ≤ totalCols ds := by
  induction ds with
  | nil => simp [totalCols]
  | cons D ds ih =>
    have := ih (fun x hx => h x (by simp [hx]))
    have h1 := (h D (by simp)).cols_nonneg
    simp only [totalCols, List.map_cons, List.sum_cons] at this ⊢
    omega

theorem hstack_fold [Zero α] (r C : Nat) (hr : 1 ≤ r) (ds : List (Dense α)) (h : ∀ D ∈ ds, D.WF ∧ D.rows = r)
    (off : Int) (hoff : 0 ≤ off) (hC : off + totalCols ds ≤ C) (f : Int → Int → α) :
    ds.foldlM (fun (st : Dense α × Int) mat => do
      if mat.cols > 0 then
        let o ← st.1.setColBlock st.2 mat
        .ok (o, st.2 + mat.cols)
      else .ok st) (Dense.ofFn r C f, off)
    = (.ok (Dense.ofFn r C (fun a b => if off ≤ b ∧ b < off + totalCols ds then sideBySide ds a (b - off)
        else f a b), off + totalCols ds) : Res _) := by
  induction ds generalizing off f with
  | nil =>
    simp only [List.foldlM_nil, totalCols, List.map_nil, List.sum_nil, add_zero]
    show Except.ok _ = Except.ok _
    congr 2
    apply Dense.ofFn_congr
    intros
    rw [if_neg (by omega)]
  | cons D ds ih =>
    obtain ⟨hD, hDr⟩ := h D (by simp)
    have hc := hD.cols_nonneg
    have ht : totalCols (D :: ds) = D.cols + totalCols ds := by simp [totalCols]
    have htn : 0 ≤ totalCols ds := totalCols_nonneg (fun x hx => (h x (by simp [hx])).1)
    rw [ht] at hC ⊢
    rw [List.foldlM_cons]
    by_cases hpos : D.cols > 0
    · rw [if_pos hpos]
      have hset : (Dense.ofFn r C f).setColBlock off D = .ok (Dense.ofFn r C (fun a b =>
          if off ≤ b ∧ b < off + D.cols then D.entry a (b - off) else f a b)) := by
        obtain ⟨E, e1, e2⟩ := C34_setSubMatrix (Dense.ofFn r C f) D (Dense.ofFn_wf r C f) hD 0 off le_rfl
          (by simp; omega) hoff (by simp; omega) (by simp [hDr]) (by simp; omega)
        unfold Dense.setSubMatrix at e1
        unfold Dense.setColBlock
        rw [hDr, zero_add] at e1
        rw [Dense.ofFn_rows, e1]
        congr 1
        refine Dense.Is.unique e2 ((Dense.is_ofFn r C _).congr ?_)
        intro a b a0 a1 b0 b1
        rw [Dense.entry_ofFn a0 a1 b0 b1, hDr, sub_zero]
        congr 1; apply propext; constructor <;> intro h <;> omega
      rw [hset]
      simp only [ok_bind]
      rw [ih (fun x hx => h x (by simp [hx])) (off + D.cols) (by omega) (by omega)]
      congr 2
      · apply Dense.ofFn_congr
        intro a b _ _ _ _
        simp only [sideBySide]
        by_cases h1 : off ≤ b ∧ b < off + D.cols
        · rw [if_neg (by omega), if_pos h1, if_pos (by omega), if_pos (by omega)]
        · rw [if_neg h1]
          by_cases h2 : off + D.cols ≤ b ∧ b < off + D.cols + totalCols ds
          · rw [if_pos h2, if_pos (by omega), if_neg (by omega)]; congr 1; omega
          · rw [if_neg h2, if_neg (by omega)]
      · omega
    · rw [if_neg hpos]
      have hz : D.cols = 0 := by omega
      simp only [ok_bind]
      rw [ih (fun x hx => h x (by simp [hx])) off hoff (by omega), hz, zero_add]
      congr 2
      apply Dense.ofFn_congr
      intro a b _ _ _ _
      by_cases h2 : off ≤ b ∧ b < off + totalCols ds
      · rw [if_pos h2, if_pos h2]; simp only [sideBySide, hz]; rw [if_neg (by omega), sub_zero]
      · rw [if_neg h2, if_neg h2]

/-- **C38.**  `HStack` of matrices with the same, positive number of rows is the matrices side by side, in order,
whatever the output object held before. -/
theorem C38_hstackInto [Zero α] (ds : List (Dense α)) (out : Dense α) (r : Int) (hr : 1 ≤ r) (hne : ds ≠ [])
    (h : ∀ D ∈ ds, D.WF ∧ D.rows = r) :
    ∃ E, Dense.hstackInto ds out = .ok E ∧ E.Is r (totalCols ds) (sideBySide ds) := by
  obtain ⟨D0, rest, rfl⟩ : ∃ D0 rest, ds = D0 :: rest := by
    cases ds with
    | nil => exact absurd rfl hne
    | cons a b => exact ⟨a, b, rfl⟩
  have h0 := (h D0 (by simp)).2
  obtain ⟨m, rfl⟩ : ∃ m : Nat, r = m := ⟨r.toNat, by omega⟩
  have htn : 0 ≤ totalCols (D0 :: rest) := totalCols_nonneg (fun x hx => (h x hx).1)
  obtain ⟨n, hn⟩ : ∃ n : Nat, totalCols (D0 :: rest) = n := ⟨(totalCols (D0 :: rest)).toNat, by omega⟩
  obtain ⟨f, hf⟩ := Dense.setSize_ofFn out m n
  have hchk : (D0 :: rest).foldlM (fun (_ : Unit) mat => cassert (mat.rows = D0.rows)) () = .ok () := by
    have : ∀ l : List (Dense α), (∀ D ∈ l, D.rows = m) →
        l.foldlM (fun (_ : Unit) mat => cassert (mat.rows = D0.rows)) () = .ok () := by
      intro l hl
      induction l with
      | nil => rfl
      | cons a l ih =>
        rw [List.foldlM_cons, cassert_true (by rw [hl a (by simp), h0]), ok_bind,
          ih (fun x hx => hl x (by simp [hx]))]
    exact this _ (fun x hx => (h x hx).2)
  have hfold := hstack_fold m n (by omega) (D0 :: rest) h 0 le_rfl (by omega) f
  refine ⟨Dense.ofFn m n (sideBySide (D0 :: rest)), ?_, by rw [hn]; exact Dense.is_ofFn m n _⟩
  unfold Dense.hstackInto
  simp only
  rw [hchk, ok_bind, sumCols_eq, hn, h0, hf, ok_bind, hfold, ok_bind]
  congr 1
  dsimp only
  apply Dense.ofFn_congr
  intro a b _ _ _ _
  rw [if_pos (by omega), sub_zero]

/-- **C38.**  The form returning a new matrix. -/
theorem C38_hstack [Zero α] (ds : List (Dense α)) (r : Int) (hr : 1 ≤ r) (hne : ds ≠ [])
    (h : ∀ D ∈ ds, D.WF ∧ D.rows = r) :
    ∃ E, Dense.hstack ds = .ok E ∧ E.Is r (totalCols ds) (sideBySide ds) :=
  C38_hstackInto ds Dense.empty r hr hne h

/-- **C38.**  Different row counts are rejected. -/
theorem C38_rejects [Zero α] (D0 D : Dense α) (rest : List (Dense α)) (o : Dense α) (hD : D ∈ rest)
    (h : D.rows ≠ D0.rows) : Dense.hstackInto (D0 :: rest) o = .error .assertFail := by
  unfold Dense.hstackInto
  simp only
  have : ∀ l : List (Dense α), D ∈ l →
      l.foldlM (fun (_ : Unit) mat => cassert (mat.rows = D0.rows)) () = .error .assertFail := by
    intro l hl
    induction l with
    | nil => cases hl
    | cons a l ih =>
      rw [List.foldlM_cons]
      by_cases ha : a.rows = D0.rows
      · rw [cassert_true ha, ok_bind]
        rcases List.mem_cons.mp hl with e | e
        · exact absurd (e ▸ ha) h
        · exact ih e
      · rw [cassert_false ha]; rfl
  rw [this _ (by simp [hD])]
  rfl

/-- **C38.**  Outside the claim: with zero rows the call fails an internal assertion, although the result is
well defined. -/
theorem C38_zero_rows : ∃ D : Dense Int, D.WF ∧ Dense.hstack [D, D] = .error .assertFail :=
  ⟨⟨0, 2, []⟩, by decide, by decide⟩

/-- C38: three matrices, one without columns. -/
example : ∃ A B C : Dense Int, (∀ D ∈ [A, B, C], D.WF ∧ D.rows = 2) ∧
    Dense.hstack [A, B, C] = .ok ⟨2, 3, [1, 2, 3, 4, 5, 6]⟩ :=
  ⟨⟨2, 1, [1, 2]⟩, ⟨2, 0, []⟩, ⟨2, 2, [3, 4, 5, 6]⟩, by decide, by decide⟩

end Linalg
