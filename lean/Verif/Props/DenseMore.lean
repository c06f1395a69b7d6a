import Verif.Props.DenseBasic
import Verif.Props.Vector

/-!
# Dense element-wise operators, scaling, row and column blocks, reductions (C69 - C71)
-/

namespace Linalg
open Cpp

variable {α R : Type}

/-! ## Element-wise operators -/

theorem Dense.data_ofFn (m n : Nat) (f : Int → Int → α) :
    (Dense.ofFn m n f).data = vecFn (m * n) (fun k => f ((k.toNat % m : Nat) : Int) ((k.toNat / m : Nat) : Int)) := by
  unfold Dense.ofFn vecFn
  simp only [Int.toNat_natCast]

theorem Dense.map_ofFn (m n : Nat) (f : Int → Int → α) (h : α → α) :
    ({ Dense.ofFn m n f with data := (Dense.ofFn m n f).data.map h } : Dense α) = Dense.ofFn m n (fun i j => h (f i j)) := by
  unfold Dense.ofFn
  simp only [List.map_map, Function.comp_def]

/-- The loop of `+=` and `-=`. -/
theorem Dense.zipUpdate_ofFn (h : α → α → α) (m n : Nat) (f g : Int → Int → α) :
    Dense.zipUpdate h (Dense.ofFn m n f) (Dense.ofFn m n g) = .ok (Dense.ofFn m n (fun i j => h (f i j) (g i j))) := by
  unfold Dense.zipUpdate
  rw [cassert_true (show (Dense.ofFn m n f).rows = (Dense.ofFn m n g).rows from rfl), ok_bind,
    cassert_true (show (Dense.ofFn m n f).cols = (Dense.ofFn m n g).cols from rfl), ok_bind]
  have e : forUp 0 ((Dense.ofFn m n f).rows * (Dense.ofFn m n f).cols) (Dense.ofFn m n f).data (fun i data => do
      let a ← rd data i
      let b ← rd (Dense.ofFn m n g).data i
      wr data i (h a b)) = .ok (Dense.ofFn m n (fun i j => h (f i j) (g i j))).data := by
    rw [Dense.data_ofFn, Dense.data_ofFn, Dense.data_ofFn,
      show (Dense.ofFn m n f).rows * (Dense.ofFn m n f).cols = ((m * n : Nat) : Int) by simp]
    apply fillLoop
    intro i w h0 h1 hw
    rw [rd_vecFn h0 h1, ok_bind, rd_vecFn h0 h1, ok_bind, hw]
  rw [e, ok_bind]
  rfl

/-- **C69.**  `A += B` and `A -= B` change every entry by the entry of `B`, and reject other sizes. -/
theorem C69_add_sub [AddGroup R] (A B : Dense R) (hA : A.WF) (hB : B.WF) :
    (A.rows = B.rows → A.cols = B.cols →
      (∃ C, A.addAssign B = .ok C ∧ C.Is A.rows A.cols (fun i j => A.entry i j + B.entry i j)) ∧
      (∃ C, A.subAssign B = .ok C ∧ C.Is A.rows A.cols (fun i j => A.entry i j - B.entry i j))) ∧
    (¬ (A.rows = B.rows ∧ A.cols = B.cols) → A.addAssign B = .error .assertFail ∧ A.subAssign B = .error .assertFail) := by
  constructor
  · intro hr hc
    obtain ⟨m, n, f, rfl⟩ := hA.exists_fn
    obtain ⟨m', n', g, rfl⟩ := hB.exists_fn
    obtain rfl : m = m' := by simpa using hr
    obtain rfl : n = n' := by simpa using hc
    constructor
    · refine ⟨_, Dense.zipUpdate_ofFn _ m n f g, (Dense.is_ofFn m n _).congr ?_⟩
      intro i j a b c d
      rw [Dense.entry_ofFn a b c d, Dense.entry_ofFn a b c d]
    · refine ⟨_, Dense.zipUpdate_ofFn _ m n f g, (Dense.is_ofFn m n _).congr ?_⟩
      intro i j a b c d
      rw [Dense.entry_ofFn a b c d, Dense.entry_ofFn a b c d]
  · intro h
    unfold Dense.addAssign Dense.subAssign Dense.zipUpdate
    by_cases hr : A.rows = B.rows
    · have hc : ¬ A.cols = B.cols := fun e => h ⟨hr, e⟩
      rw [cassert_true hr, cassert_false hc]
      exact ⟨rfl, rfl⟩
    · rw [cassert_false hr]
      exact ⟨rfl, rfl⟩

/-- **C69.**  `A *= s` multiplies and `A /= s` divides every entry; division by zero is rejected. -/
theorem C69_scalar [GroupWithZero R] [DecidableEq R] (A : Dense R) (hA : A.WF) (s : R) :
    (A.mulScalar s).Is A.rows A.cols (fun i j => A.entry i j * s) ∧
    (s ≠ 0 → ∃ C, A.divScalar s = .ok C ∧ C.Is A.rows A.cols (fun i j => A.entry i j / s) ∧ C.mulScalar s = A) ∧
    A.divScalar 0 = .error .assertFail := by
  obtain ⟨m, n, f, rfl⟩ := hA.exists_fn
  refine ⟨?_, fun hs => ⟨Dense.ofFn m n (fun i j => f i j / s), ?_, ?_, ?_⟩, ?_⟩
  · unfold Dense.mulScalar
    rw [Dense.map_ofFn m n f (fun x => x * s)]
    refine (Dense.is_ofFn m n _).congr ?_
    intro i j a b c d
    rw [Dense.entry_ofFn a b c d]
  · unfold Dense.divScalar
    rw [cassert_true hs, ok_bind, Dense.map_ofFn m n f (fun x => x / s)]
  · refine (Dense.is_ofFn m n _).congr ?_
    intro i j a b c d
    rw [Dense.entry_ofFn a b c d]
  · unfold Dense.mulScalar
    rw [Dense.map_ofFn m n _ (fun x => x * s)]
    apply Dense.ofFn_congr
    intro i j _ _ _ _
    exact div_mul_cancel₀ _ hs
  · unfold Dense.divScalar
    rw [cassert_false (by simp)]
    rfl

/-- C69: a 2 x 3 matrix. -/
example : ∃ A B : Dense Int, A.WF ∧ B.WF ∧ A.rows = B.rows ∧ A.cols = B.cols ∧
    A.addAssign B = .ok ⟨2, 3, [11, 22, 33, 44, 55, 66]⟩ ∧ A.mulScalar 2 = ⟨2, 3, [2, 4, 6, 8, 10, 12]⟩ :=
  ⟨⟨2, 3, [1, 2, 3, 4, 5, 6]⟩, ⟨2, 3, [10, 20, 30, 40, 50, 60]⟩, by decide, by decide, rfl, rfl, by decide, by decide⟩

/-! ## Scaling -/

/-- A loop over one column. -/
theorem Dense.oneColLoop {m n : Nat} (f g : Int → Int → α) (j : Int) (hj : 0 ≤ j) (hj' : j < n)
    (body : Int → Dense α → Res (Dense α))
    (hb : ∀ (i : Int) h, 0 ≤ i → i < m → h i j = f i j →
      body i (Dense.ofFn m n h) = (Dense.ofFn m n h).put i j (g i j)) :
    forUp 0 (m : Int) (Dense.ofFn m n f) body = .ok (Dense.ofFn m n (fun a b => if b = j then g a b else f a b)) := by
  have e0 : Dense.ofFn m n f = Dense.ofFn m n (fun a b => if b = j ∧ a < 0 then g a b else f a b) := by
    apply Dense.ofFn_congr; intros; rw [if_neg (by omega)]
  have e1 : Dense.ofFn m n (fun a b => if b = j then g a b else f a b)
      = Dense.ofFn m n (fun a b => if b = j ∧ a < (m : Int) then g a b else f a b) := by
    apply Dense.ofFn_congr; intros; congr 1; apply propext; omega
  rw [e0, e1]
  refine forUp_seq (by omega) (fun i => Dense.ofFn m n (fun a b => if b = j ∧ a < i then g a b else f a b)) ?_
  intro i i0 i1
  rw [hb i _ i0 i1 (by rw [if_neg (by omega)]), Dense.put_ofFn _ i0 i1 hj hj']
  congr 1
  apply Dense.ofFn_congr
  intro a b _ _ _ _
  by_cases h : a = i ∧ b = j
  · rw [if_pos h, if_pos (by omega), h.1, h.2]
  · rw [if_neg h]; congr 1; apply propext; omega

/-- A loop over the columns, each of which is replaced. -/
theorem Dense.colsLoop {m n : Nat} (f g : Int → Int → α) (body : Int → Dense α → Res (Dense α))
    (hb : ∀ (j : Int) h, 0 ≤ j → j < n → (∀ i, h i j = f i j) →
      body j (Dense.ofFn m n h) = .ok (Dense.ofFn m n (fun a b => if b = j then g a b else h a b))) :
    forUp 0 (n : Int) (Dense.ofFn m n f) body = .ok (Dense.ofFn m n g) := by
  have e0 : Dense.ofFn m n f = Dense.ofFn m n (fun a b => if b < 0 then g a b else f a b) := by
    apply Dense.ofFn_congr; intros; rw [if_neg (by omega)]
  have e1 : Dense.ofFn m n g = Dense.ofFn m n (fun a b => if b < (n : Int) then g a b else f a b) := by
    apply Dense.ofFn_congr; intros; rw [if_pos (by omega)]
  rw [e0, e1]
  refine forUp_seq (by omega) (fun j => Dense.ofFn m n (fun a b => if b < j then g a b else f a b)) ?_
  intro j j0 j1
  rw [hb j _ j0 j1 (fun i => by rw [if_neg (by omega)])]
  congr 1
  apply Dense.ofFn_congr
  intro a b _ _ _ _
  by_cases h : b = j
  · rw [if_pos h, if_pos (by omega)]
  · rw [if_neg h]; congr 1; apply propext; omega

/-- **C70.**  `ScaleRows(v)` multiplies row `i` by `v[i]`, `ScaleCols(v)` column `j` by `v[j]`. -/
theorem C70_scale [MulZeroClass R] (A : Dense R) (hA : A.WF) (v : List R) :
    (A.rows ≤ v.length → ∃ C, A.scaleRows v = .ok C ∧ C.Is A.rows A.cols (fun i j => A.entry i j * vecAt v i)) ∧
    (A.cols ≤ v.length → ∃ C, A.scaleCols v = .ok C ∧ C.Is A.rows A.cols (fun i j => A.entry i j * vecAt v j)) := by
  obtain ⟨m, n, f, rfl⟩ := hA.exists_fn
  constructor
  · intro hv
    simp only [Dense.ofFn_rows] at hv
    refine ⟨Dense.ofFn m n (fun i j => f i j * vecAt v i), ?_, (Dense.is_ofFn m n _).congr ?_⟩
    · refine Dense.colsLoop f _ _ ?_
      intro j h j0 j1 hh
      refine Dense.oneColLoop h (fun i j => f i j * vecAt v i) j j0 j1 _ ?_
      intro i w i0 i1 hw
      rw [rd_vecAt v i0 (by omega), ok_bind, Dense.get_ofFn i0 i1 j0 j1, ok_bind, hw, hh]
    · intro i j a b c d
      rw [Dense.entry_ofFn a b c d]
  · intro hv
    simp only [Dense.ofFn_cols] at hv
    refine ⟨Dense.ofFn m n (fun i j => f i j * vecAt v j), ?_, (Dense.is_ofFn m n _).congr ?_⟩
    · refine Dense.colsLoop f _ _ ?_
      intro j h j0 j1 hh
      rw [rd_vecAt v j0 (by omega), ok_bind]
      refine Dense.oneColLoop h (fun i j => f i j * vecAt v j) j j0 j1 _ ?_
      intro i w i0 i1 hw
      rw [Dense.get_ofFn i0 i1 j0 j1, ok_bind, hw, hh]
    · intro i j a b c d
      rw [Dense.entry_ofFn a b c d]

/-- **C70.**  `InverseScaleRows(v)` and `InverseScaleCols(v)` divide, and undo the scaling. -/
theorem C70_inverse [GroupWithZero R] [DecidableEq R] (A : Dense R) (hA : A.WF) (v : List R) (hv : ∀ x ∈ v, x ≠ 0) :
    (A.rows ≤ v.length → ∃ C, A.inverseScaleRows v = .ok C ∧ C.Is A.rows A.cols (fun i j => A.entry i j / vecAt v i) ∧
      C.scaleRows v = .ok A) ∧
    (A.cols ≤ v.length → ∃ C, A.inverseScaleCols v = .ok C ∧ C.Is A.rows A.cols (fun i j => A.entry i j / vecAt v j) ∧
      C.scaleCols v = .ok A) := by
  have hne : ∀ i : Int, 0 ≤ i → i < v.length → vecAt v i ≠ 0 := fun i h0 h1 => by
    rw [vecAt_int v h0 h1]; exact hv _ (List.getElem_mem _)
  obtain ⟨m, n, f, rfl⟩ := hA.exists_fn
  constructor
  · intro hl
    simp only [Dense.ofFn_rows] at hl
    refine ⟨Dense.ofFn m n (fun i j => f i j / vecAt v i), ?_, (Dense.is_ofFn m n _).congr ?_, ?_⟩
    · refine Dense.colsLoop f _ _ ?_
      intro j h j0 j1 hh
      refine Dense.oneColLoop h (fun i j => f i j / vecAt v i) j j0 j1 _ ?_
      intro i w i0 i1 hw
      rw [rd_vecAt v i0 (by omega), ok_bind, cassert_true (hne i i0 (by omega)), ok_bind, Dense.get_ofFn i0 i1 j0 j1, ok_bind,
        hw, hh]
    · intro i j a b c d
      rw [Dense.entry_ofFn a b c d]
    · obtain ⟨E, e1, e2⟩ := (C70_scale (Dense.ofFn m n (fun i j => f i j / vecAt v i)) (Dense.ofFn_wf _ _ _) v).1 (by simpa using hl)
      rw [e1]
      congr 1
      refine e2.unique ((Dense.is_ofFn m n f).congr ?_)
      intro i j a b c d
      rw [Dense.entry_ofFn a b c d, div_mul_cancel₀ _ (hne i a (by omega))]
  · intro hl
    simp only [Dense.ofFn_cols] at hl
    refine ⟨Dense.ofFn m n (fun i j => f i j / vecAt v j), ?_, (Dense.is_ofFn m n _).congr ?_, ?_⟩
    · refine Dense.colsLoop f _ _ ?_
      intro j h j0 j1 hh
      rw [rd_vecAt v j0 (by omega), ok_bind, cassert_true (hne j j0 (by omega)), ok_bind]
      refine Dense.oneColLoop h (fun i j => f i j / vecAt v j) j j0 j1 _ ?_
      intro i w i0 i1 hw
      rw [Dense.get_ofFn i0 i1 j0 j1, ok_bind, hw, hh]
    · intro i j a b c d
      rw [Dense.entry_ofFn a b c d]
    · obtain ⟨E, e1, e2⟩ := (C70_scale (Dense.ofFn m n (fun i j => f i j / vecAt v j)) (Dense.ofFn_wf _ _ _) v).2 (by simpa using hl)
      rw [e1]
      congr 1
      refine e2.unique ((Dense.is_ofFn m n f).congr ?_)
      intro i j a b c d
      rw [Dense.entry_ofFn a b c d, div_mul_cancel₀ _ (hne j c (by omega))]

/-- **C70.**  A zero among the values used is rejected. -/
theorem C70_rejects [GroupWithZero R] [DecidableEq R] (A : Dense R) (hA : A.WF) (v : List R) :
    (A.rows ≤ v.length → 1 ≤ A.cols → (∃ i, 0 ≤ i ∧ i < A.rows ∧ vecAt v i = 0) → A.inverseScaleRows v = .error .assertFail) ∧
    (A.cols ≤ v.length → (∃ j, 0 ≤ j ∧ j < A.cols ∧ vecAt v j = 0) → A.inverseScaleCols v = .error .assertFail) := by
  obtain ⟨m, n, f, rfl⟩ := hA.exists_fn
  constructor
  · intro hl hc hz
    simp only [Dense.ofFn_rows, Dense.ofFn_cols] at hl hc hz
    unfold Dense.inverseScaleRows
    simp only [Dense.ofFn_cols]
    rw [forUp_cons (by omega)]
    have : forUp 0 (Dense.ofFn m n f).rows (Dense.ofFn m n f) (fun i D => do
      let s ← rd v i
      cassert (s ≠ 0)
      let x ← D.get i 0
      D.put i 0 (x / s)) = .error .assertFail := by
      refine forUp_fails (fun _ D => ∃ g, D = Dense.ofFn m n g) (fun i => vecAt v i ≠ 0) _ ⟨f, rfl⟩ ?_ ?_ ?_
      · rintro i s i0 i1 ⟨g, rfl⟩ hi
        simp only [Dense.ofFn_rows] at i1
        rw [rd_vecAt v i0 (by omega), ok_bind, cassert_true hi, ok_bind, Dense.get_ofFn i0 i1 le_rfl (by omega), ok_bind,
          Dense.put_ofFn _ i0 i1 le_rfl (by omega)]
        exact ⟨_, rfl, _, rfl⟩
      · rintro i s i0 i1 ⟨g, rfl⟩ hi
        simp only [Dense.ofFn_rows] at i1
        rw [rd_vecAt v i0 (by omega), ok_bind, cassert_false hi]
        rfl
      · obtain ⟨i, a, b, c⟩ := hz
        exact ⟨i, a, b, by simpa using c⟩
    rw [this]
    rfl
  · intro hl hz
    simp only [Dense.ofFn_cols] at hl hz
    unfold Dense.inverseScaleCols
    refine forUp_fails (fun _ D => ∃ g, D = Dense.ofFn m n g) (fun j => vecAt v j ≠ 0) _ ⟨f, rfl⟩ ?_ ?_ ?_
    · rintro j s j0 j1 ⟨g, rfl⟩ hj
      simp only [Dense.ofFn_cols] at j1
      rw [rd_vecAt v j0 (by omega), ok_bind, cassert_true hj, ok_bind]
      refine ⟨_, Dense.oneColLoop g (fun i j => g i j / vecAt v j) j j0 j1 _ ?_, _, rfl⟩
      intro i w i0 i1 hw
      rw [Dense.get_ofFn i0 i1 j0 j1, ok_bind, hw]
    · rintro j s j0 j1 ⟨g, rfl⟩ hj
      simp only [Dense.ofFn_cols] at j1
      rw [rd_vecAt v j0 (by omega), ok_bind, cassert_false hj]
      rfl
    · obtain ⟨i, a, b, c⟩ := hz
      exact ⟨i, a, b, by simpa using c⟩

/-- C70: rows and columns of a 2 x 3 matrix. -/
example : ∃ (A : Dense Rat) (r c : List Rat), A.WF ∧ (∀ x ∈ r, x ≠ 0) ∧ A.rows ≤ r.length ∧ A.cols ≤ c.length ∧
    A.scaleRows r = .ok ⟨2, 3, [2, 6, 6, 12, 10, 18]⟩ ∧ A.scaleCols c = .ok ⟨2, 3, [1, 2, 0, 0, -5, -6]⟩ ∧
    A.inverseScaleCols c = .error .assertFail :=
  ⟨⟨2, 3, [1, 2, 3, 4, 5, 6]⟩, [2, 3], [1, 0, -1], by decide, by decide, by decide, by decide, by decide +kernel,
    by decide +kernel, by decide +kernel⟩

/-! ## Rows, columns, the diagonal, reductions -/

/-- **C71.**  `GetRow(start, end)` and `GetCol(start, end)` return the rows or columns `start, ..., end - 1`. -/
theorem C71_ranges [Zero α] (A : Dense α) (hA : A.WF) (a b : Int) (ha : 0 ≤ a) (hab : a ≤ b) :
    (a < A.rows → b ≤ A.rows → 0 < A.cols →
      ∃ C, A.getRowRange a b = .ok C ∧ C.Is (b - a) A.cols (fun i j => A.entry (i + a) j)) ∧
    (a < A.cols → b ≤ A.cols → 0 < A.rows →
      ∃ C, A.getColRange a b = .ok C ∧ C.Is A.rows (b - a) (fun i j => A.entry i (j + a))) := by
  have hz : ∀ r c : Int, 0 ≤ r → 0 ≤ c → ∃ Z : Dense α, Dense.zeros r c = .ok Z := by
    intro r c hr hc
    obtain ⟨r', rfl⟩ : ∃ k : Nat, r = k := ⟨r.toNat, by omega⟩
    obtain ⟨c', rfl⟩ : ∃ k : Nat, c = k := ⟨c.toNat, by omega⟩
    exact ⟨_, Dense.zeros_ofFn r' c'⟩
  constructor
  · intro h1 h2 h3
    obtain ⟨Z, hZ⟩ := hz (b - a) A.cols (by omega) (by omega)
    obtain ⟨E, e1, e2⟩ := C34_getSubMatrixInto A Z hA a 0 b A.cols ha h1 le_rfl h3 hab h2 (by omega) le_rfl
    refine ⟨E, ?_, ?_⟩
    · unfold Dense.getRowRange; rw [hZ, ok_bind, e1]
    · simpa using e2
  · intro h1 h2 h3
    obtain ⟨Z, hZ⟩ := hz A.rows (b - a) (by omega) (by omega)
    obtain ⟨E, e1, e2⟩ := C34_getSubMatrixInto A Z hA 0 a A.rows b le_rfl h3 ha h1 (by omega) le_rfl hab h2
    refine ⟨E, ?_, ?_⟩
    · unfold Dense.getColRange; rw [hZ, ok_bind, e1]
    · simpa using e2

/-- **C71.**  `GetRow(rows)` returns the listed rows. -/
theorem C71_rowIdx [Zero α] (A : Dense α) (hA : A.WF) (rows : List Int) (hr : ∀ r ∈ rows, 0 ≤ r ∧ r < A.rows) :
    ∃ C, A.getRowIdx rows = .ok C ∧ C.Is rows.length A.cols (fun i j => A.entry (vecAt rows i) j) := by
  have hA' := hA.is_entry
  obtain ⟨n, hn⟩ : ∃ n : Nat, A.cols = n := ⟨A.cols.toNat, by have := hA.cols_nonneg; omega⟩
  refine ⟨Dense.ofFn rows.length n (fun i j => A.entry (vecAt rows i) j), ?_, by rw [hn]; exact Dense.is_ofFn _ _ _⟩
  unfold Dense.getRowIdx
  rw [hn, Dense.zeros_ofFn, ok_bind, cassert_true (by simp), ok_bind, cassert_true (by simp), ok_bind]
  rw [forUp_congr (g := fun i dense => forUp 0 (n : Int) dense (fun j dense => do
      let row ← rd rows i
      let x ← A.get row j
      dense.put i j x))]
  · refine Dense.fullLoopRow _ _ (fun i j dense => _) ?_
    intro i j h i0 i1 j0 j1 _
    have := hr (vecAt rows i) (by rw [vecAt_int rows i0 i1]; exact List.getElem_mem _)
    rw [rd_vecAt rows i0 i1, ok_bind, hA'.get_eq _ _ this.1 this.2 j0 (by omega), ok_bind]
  · intro i s h0 h1
    rw [rd_vecAt rows h0 h1]
    rfl

/-- **C71.**  `SetRow(start, B)` and `SetCol(start, B)` replace exactly those rows or columns. -/
theorem C71_setBlocks [Zero α] (A B : Dense α) (hA : A.WF) (hB : B.WF) (a : Int) (ha : 0 ≤ a) :
    (a < A.rows → a + B.rows ≤ A.rows → 0 < A.cols → B.cols = A.cols →
      ∃ C, A.setRowBlock a B = .ok C ∧
        C.Is A.rows A.cols (fun i j => if a ≤ i ∧ i < a + B.rows then B.entry (i - a) j else A.entry i j)) ∧
    (a < A.cols → a + B.cols ≤ A.cols → 0 < A.rows → B.rows = A.rows →
      ∃ C, A.setColBlock a B = .ok C ∧
        C.Is A.rows A.cols (fun i j => if a ≤ j ∧ j < a + B.cols then B.entry i (j - a) else A.entry i j)) := by
  constructor
  · intro h1 h2 h3 h4
    obtain ⟨E, e1, e2⟩ := C34_setSubMatrix A B hA hB a 0 ha h1 le_rfl h3 h2 (by omega)
    refine ⟨E, ?_, e2.congr ?_⟩
    · unfold Dense.setRowBlock
      unfold Dense.setSubMatrix at e1
      rw [zero_add, h4] at e1
      exact e1
    · intro i j i0 i1 j0 j1
      by_cases h : a ≤ i ∧ i < a + B.rows
      · rw [if_pos (by omega), if_pos h, sub_zero]
      · rw [if_neg (by omega), if_neg h]
  · intro h1 h2 h3 h4
    obtain ⟨E, e1, e2⟩ := C34_setSubMatrix A B hA hB 0 a le_rfl h3 ha h1 (by omega) h2
    refine ⟨E, ?_, e2.congr ?_⟩
    · unfold Dense.setColBlock
      unfold Dense.setSubMatrix at e1
      rw [zero_add, h4] at e1
      exact e1
    · intro i j i0 i1 j0 j1
      by_cases h : a ≤ j ∧ j < a + B.cols
      · rw [if_pos (by omega), if_pos h, sub_zero]
      · rw [if_neg (by omega), if_neg h]

/-- **C71.**  `GetDiag` returns the diagonal and rejects a matrix that is not square. -/
theorem C71_getDiag [Zero α] (A : Dense α) (hA : A.WF) :
    (A.rows = A.cols → ∃ d, A.getDiag = .ok d ∧ VecIs d A.rows (fun i => A.entry i i)) ∧
    (A.rows ≠ A.cols → A.getDiag = .error .assertFail) := by
  constructor
  · intro h
    have hA' := hA.is_entry
    obtain ⟨n, hn⟩ : ∃ n : Nat, A.rows = n := ⟨A.rows.toNat, by have := hA.rows_nonneg; omega⟩
    refine ⟨vecFn n (fun i => A.entry i i), ?_, by rw [hn]; exact is_vecFn _ _⟩
    unfold Dense.getDiag
    rw [cassert_true h, ok_bind, hn, mkVec_nat, ok_bind, cassert_true (by simp), ok_bind, replicate_vecFn]
    apply fillLoop
    intro i w i0 i1 _
    rw [hA'.get_eq i i i0 (by omega) i0 (by omega), ok_bind]
  · intro h
    unfold Dense.getDiag
    rw [cassert_false h]
    rfl

theorem Dense.mem_data [Zero α] {A : Dense α} (hA : A.WF) (x : α) :
    x ∈ A.data ↔ ∃ i j, 0 ≤ i ∧ i < A.rows ∧ 0 ≤ j ∧ j < A.cols ∧ A.entry i j = x := by
  obtain ⟨m, n, f, rfl⟩ := hA.exists_fn
  constructor
  · intro h
    simp only [Dense.ofFn, List.mem_map, List.mem_range] at h
    obtain ⟨k, hk, rfl⟩ := h
    have hm : 0 < m := Nat.pos_of_ne_zero (by rintro rfl; simp at hk)
    have h1 : k % m < m := Nat.mod_lt _ hm
    have h2 : k / m < n := Nat.div_lt_of_lt_mul hk
    refine ⟨((k % m : Nat) : Int), ((k / m : Nat) : Int), by positivity,
      by rw [Dense.ofFn_rows]; exact_mod_cast h1, by positivity, by rw [Dense.ofFn_cols]; exact_mod_cast h2, ?_⟩
    rw [Dense.entry_ofFn (by positivity) (by exact_mod_cast h1) (by positivity) (by exact_mod_cast h2)]
  · rintro ⟨i, j, i0, i1, j0, j1, rfl⟩
    simp only [Dense.ofFn_rows, Dense.ofFn_cols] at i1 j1
    rw [Dense.entry_ofFn i0 i1 j0 j1]
    obtain ⟨a, rfl⟩ : ∃ a : Nat, i = a := ⟨i.toNat, by omega⟩
    obtain ⟨b, rfl⟩ : ∃ b : Nat, j = b := ⟨j.toNat, by omega⟩
    have ha : a < m := by omega
    have hb : b < n := by omega
    simp only [Dense.ofFn, List.mem_map, List.mem_range]
    exact ⟨a + b * m, Dense.idx_lt ha hb, by rw [Dense.idx_mod ha, Dense.idx_div ha]⟩

/-- **C71.**  `Max` and `Min` return an entry that bounds all entries; a matrix without entries is rejected. -/
theorem C71_max_min [LinearOrder α] [Zero α] (A : Dense α) (hA : A.WF) :
    (1 ≤ A.rows → 1 ≤ A.cols →
      (∃ i j, 0 ≤ i ∧ i < A.rows ∧ 0 ≤ j ∧ j < A.cols ∧ A.max = .ok (A.entry i j) ∧
        ∀ k l, 0 ≤ k → k < A.rows → 0 ≤ l → l < A.cols → A.entry k l ≤ A.entry i j) ∧
      (∃ i j, 0 ≤ i ∧ i < A.rows ∧ 0 ≤ j ∧ j < A.cols ∧ A.min = .ok (A.entry i j) ∧
        ∀ k l, 0 ≤ k → k < A.rows → 0 ≤ l → l < A.cols → A.entry i j ≤ A.entry k l)) ∧
    (A.rows = 0 ∨ A.cols = 0 → A.max = .error .assertFail ∧ A.min = .error .assertFail) := by
  have hmem := Dense.mem_data hA
  have hsz := hA.size
  constructor
  · intro hr hc
    rcases hd : A.data with _ | ⟨x, l⟩
    · rw [hd] at hsz
      have : 0 < A.rows * A.cols := Int.mul_pos (by omega) (by omega)
      simp at hsz
      omega
    · obtain ⟨a1, a2⟩ := maxElement_spec (fun a : α => a) (fun a b => decide (a < b)) (fun _ _ => rfl) x l
      obtain ⟨b1, b2⟩ := minElement_spec (fun a : α => a) (fun a b => decide (a < b)) (fun _ _ => rfl) x l
      have e1 : A.max = .ok (Vec.maxElement (fun a b => decide (a < b)) x l) := by
        unfold Dense.max Dense.maxElement Vec.maxElement
        rw [hd]
        simp only [decide_eq_true_eq]
      have e2 : A.min = .ok (Vec.minElement (fun a b => decide (a < b)) x l) := by
        unfold Dense.min Dense.minElement Vec.minElement
        rw [hd]
        simp only [decide_eq_true_eq]
      rw [← hd] at a1 a2 b1 b2
      obtain ⟨i, j, i0, i1, j0, j1, e⟩ := (hmem _).mp a1
      obtain ⟨i', j', i0', i1', j0', j1', e'⟩ := (hmem _).mp b1
      refine ⟨⟨i, j, i0, i1, j0, j1, by rw [e1, e], fun k l k0 k1 l0 l1 => ?_⟩,
        ⟨i', j', i0', i1', j0', j1', by rw [e2, e'], fun k l k0 k1 l0 l1 => ?_⟩⟩
      · rw [e]; exact a2 _ ((hmem _).mpr ⟨k, l, k0, k1, l0, l1, rfl⟩)
      · rw [e']; exact b2 _ ((hmem _).mpr ⟨k, l, k0, k1, l0, l1, rfl⟩)
  · intro h
    have : A.data = [] := by
      apply List.length_eq_zero_iff.mp
      rcases h with h | h <;> rw [h] at hsz <;> simp at hsz <;> rw [hsz] <;> rfl
    unfold Dense.max Dense.min
    rw [this]
    exact ⟨rfl, rfl⟩

/-- **C71.**  `Sum` adds all entries; a matrix without entries is rejected. -/
theorem C71_sum [AddCommMonoid R] (A : Dense R) (hA : A.WF) :
    (1 ≤ A.rows → 1 ≤ A.cols →
      A.sum = .ok (∑ j ∈ Finset.Ico (0 : Int) A.cols, ∑ i ∈ Finset.Ico (0 : Int) A.rows, A.entry i j)) ∧
    (A.rows = 0 ∨ A.cols = 0 → A.sum = .error .assertFail) := by
  have hsz := hA.size
  constructor
  · intro hr hc
    have hne : A.data ≠ [] := by
      intro hd
      rw [hd] at hsz
      have : 0 < A.rows * A.cols := Int.mul_pos (by omega) (by omega)
      simp at hsz
      omega
    unfold Dense.sum
    rw [cassert_true hne, ok_bind, foldl_add_sum A.data (fun a => a) 0, zero_add, List.map_id']
    congr 1
    clear hne hsz
    obtain ⟨m, n, f, rfl⟩ := hA.exists_fn
    simp only [Dense.ofFn_rows, Dense.ofFn_cols]
    have key : ∀ n : Nat, ((List.range (m * n)).map (fun k : Nat => f ((k % m : Nat) : Int) ((k / m : Nat) : Int))).sum
        = ∑ j ∈ Finset.Ico (0 : Int) n, ∑ i ∈ Finset.Ico (0 : Int) m, f i j := by
      intro n
      induction n with
      | zero => simp
      | succ n ih =>
        rw [Nat.mul_succ, List.range_add, List.map_append, List.sum_append, ih]
        rw [show ((n + 1 : Nat) : Int) = (n : Int) + 1 by push_cast; rfl, sum_Ico_succ _ (by positivity)]
        congr 1
        rw [List.map_map]
        have e : ∀ k ∈ List.range m, ((fun k : Nat => f ((k % m : Nat) : Int) ((k / m : Nat) : Int)) ∘ fun x => m * n + x) k
            = f (k : Int) (n : Int) := by
          intro k hk
          have hk' := List.mem_range.mp hk
          simp only [Function.comp]
          rw [show m * n + k = k + n * m by ring, Dense.idx_mod hk', Dense.idx_div hk']
        rw [List.map_congr_left e]
        have : ∀ m : Nat, ((List.range m).map (fun k : Nat => f (k : Int) (n : Int))).sum = ∑ i ∈ Finset.Ico (0 : Int) m, f i (n : Int) := by
          intro m
          induction m with
          | zero => simp
          | succ m ih2 =>
            rw [List.range_succ, List.map_append, List.sum_append, ih2]
            push_cast
            rw [sum_Ico_succ _ (by positivity)]
            simp
        exact this m
    refine (key n).trans ?_
    refine Finset.sum_congr rfl (fun j hj => Finset.sum_congr rfl (fun i hi => ?_))
    simp only [Finset.mem_Ico] at hi hj
    rw [Dense.entry_ofFn hi.1 hi.2 hj.1 hj.2]
  · intro h
    have : A.data = [] := by
      apply List.length_eq_zero_iff.mp
      rcases h with h | h <;> rw [h] at hsz <;> simp at hsz <;> rw [hsz] <;> rfl
    unfold Dense.sum
    rw [cassert_false (by simpa using this)]
    rfl

/-- C71: a 2 x 2 matrix. -/
example : ∃ A : Dense Int, A.WF ∧ A.getDiag = .ok [1, -4] ∧ A.max = .ok 7 ∧ A.min = .ok (-4) ∧ A.sum = .ok 6 ∧
    A.getRowIdx [1, 0, 1] = .ok ⟨3, 2, [2, 1, 2, -4, 7, -4]⟩ ∧ A.getColRange 1 2 = .ok ⟨2, 1, [7, -4]⟩ ∧
    A.setRowBlock 1 ⟨1, 2, [8, 9]⟩ = .ok ⟨2, 2, [1, 8, 7, 9]⟩ :=
  ⟨⟨2, 2, [1, 2, 7, -4]⟩, by decide, by decide, by decide, by decide, by decide, by decide, by decide, by decide⟩

end Linalg
