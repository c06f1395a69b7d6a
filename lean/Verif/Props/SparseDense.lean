import Verif.Proof.SparseDense

/-!
# Sparse to dense conversion and sparse-dense products (C06, C14)
-/

namespace Linalg
open Cpp

variable {α R : Type}

/-- The last value stored in row `i` with column `j`, or 0 when there is none. -/
def Csr.lastAt [Zero α] (A : Csr α) (i j : Int) : α :=
  (((A.row i).filter (fun e => e.1 = j)).map Prod.snd).getLastD 0

/-- **C06.**  What `ToDense(dense)` produces for every well-formed matrix, whatever `dense` was before: the
same shape, and at `(i, j)` the last value stored there (0 if none). -/
theorem C06_toDenseInto_last [Zero α] (A : Csr α) (hA : A.WF) (D : Dense α) :
    ∃ E, A.toDenseInto D = .ok E ∧ E.Is A.rows A.cols A.lastAt := by
  obtain ⟨n, rs, hn, hrs, rfl⟩ := hA.exists_rows
  obtain ⟨N, rfl⟩ : ∃ N : Nat, n = N := ⟨n.toNat, by omega⟩
  have hT := triplesL_ok hrs
  obtain ⟨f, hf⟩ := Dense.setSize_ofFn D rs.length N
  refine ⟨Dense.ofFn rs.length N (putAll (triplesL rs) (fun _ _ => 0)), ?_, ?_⟩
  · unfold Csr.toDenseInto
    have e : D.setSize (Csr.ofRows (N : Int) rs).rows (Csr.ofRows (N : Int) rs).cols = _ := hf
    rw [e, ok_bind]
    simp only [Dense.fill_ofFn]
    rw [rowLoop_ofRows (N : Int) rs _ _ (fun i e D => D.put i e.1 e.2)]
    · exact foldlM_put (triplesL rs) _ hT
    · intro k m hk hm s
      rw [rd_data_ofRows _ rs k m hk hm, rd_indices_ofRows _ rs k m hk hm]
      rfl
  · refine (Dense.is_ofFn _ _ _).congr ?_
    intro i j h0 h1 _ _
    obtain ⟨k, rfl⟩ : ∃ k : Nat, i = k := ⟨i.toNat, by omega⟩
    have hk : k < rs.length := by omega
    rw [putAll_eq, filter_triplesL2 rs k hk, Csr.lastAt, Csr.row_ofRows _ rs k hk]

/-- **C06.**  The same for `ToDense()`. -/
theorem C06_toDense_last [Zero α] (A : Csr α) (hA : A.WF) :
    ∃ E, A.toDense = .ok E ∧ E.Is A.rows A.cols A.lastAt := by
  have h1 := hA.rows_nonneg
  have h2 := hA.cols_nonneg
  unfold Csr.toDense
  have := Dense.zeros_ofFn (α := α) A.rows.toNat A.cols.toNat
  rw [show ((A.rows.toNat : Nat) : Int) = A.rows by omega,
    show ((A.cols.toNat : Nat) : Int) = A.cols by omega] at this
  rw [this, ok_bind]
  exact C06_toDenseInto_last A hA _

theorem lastAt_eq_coef [AddMonoid R] {A : Csr R} {i : Int} (h : ((A.row i).map Prod.fst).Nodup)
    (j : Int) : A.lastAt i j = A.coef i j := by
  unfold Csr.lastAt Csr.coef
  have hl : ((A.row i).filter (fun e => e.1 = j)).length ≤ 1 := by
    have := List.nodup_iff_count_le_one.mp h j
    rw [List.count_eq_length_filter, List.filter_map, List.length_map] at this
    exact le_trans (le_of_eq (by congr 1)) this
  generalize (A.row i).filter (fun e => e.1 = j) = l at hl
  match l, hl with
  | [], _ => rfl
  | [e], _ => simp
  | _ :: _ :: _, hl => simp at hl

/-- **C06 (partial).**  `ToDense()(i,j) = A(i,j)` whenever no row stores a column twice.  Missing: with duplicated
columns the claim is false, see `C06_toDense_false`. -/
theorem C06_toDense_partial [AddMonoid R] (A : Csr R) (hA : A.WF) (hd : A.NoDup) :
    ∃ E, A.toDense = .ok E ∧ E.Is A.rows A.cols A.coef := by
  obtain ⟨E, h1, h2⟩ := C06_toDense_last A hA
  exact ⟨E, h1, h2.congr (fun i j _ _ _ _ => lastAt_eq_coef (hd i) j)⟩

/-- **C06.**  With a duplicated column, `ToDense` and `Mult` disagree: `ToDense()(0,0) = 3` but `Mult` applies 5. -/
theorem C06_toDense_false :
    ∃ A : Csr Int, A.WF ∧ A.toDense = .ok ⟨1, 1, [3]⟩ ∧ A.coef 0 0 = 5 ∧ A.multVec [1] = .ok [5] :=
  ⟨⟨1, 1, [0, 2], [0, 0], [2, 3]⟩, by decide, by decide, by decide, by decide⟩

/-- **C06.**  `TransposeDense()` is the transpose of what `ToDense()` gives. -/
theorem C06_transposeDense_last [Zero α] (A : Csr α) (hA : A.WF) (D : Dense α) :
    ∃ E, A.transposeDenseInto D = .ok E ∧ E.Is A.cols A.rows (fun i j => A.lastAt j i) := by
  obtain ⟨n, rs, hn, hrs, rfl⟩ := hA.exists_rows
  obtain ⟨N, rfl⟩ : ∃ N : Nat, n = N := ⟨n.toNat, by omega⟩
  have hT := triplesL_ok hrs
  obtain ⟨f, hf⟩ := Dense.setSize_ofFn D N rs.length
  let sw : Int × Int × α → Int × Int × α := fun t => (t.2.1, t.1, t.2.2)
  refine ⟨Dense.ofFn N rs.length (putAll ((triplesL rs).map sw) (fun _ _ => 0)), ?_, ?_⟩
  · unfold Csr.transposeDenseInto
    have e : D.setSize (Csr.ofRows (N : Int) rs).cols (Csr.ofRows (N : Int) rs).rows = _ := hf
    rw [e, ok_bind]
    simp only [Dense.fill_ofFn]
    rw [rowLoop_ofRows (N : Int) rs _ _ (fun i e D => D.put e.1 i e.2)]
    · rw [← foldlM_put ((triplesL rs).map sw) _ (by
        intro t ht
        obtain ⟨u, hu, rfl⟩ := List.mem_map.mp ht
        exact ⟨(hT u hu).2, (hT u hu).1⟩), List.foldlM_map]
    · intro k m hk hm s
      rw [rd_data_ofRows _ rs k m hk hm, rd_indices_ofRows _ rs k m hk hm]
      rfl
  · refine (Dense.is_ofFn _ _ _).congr ?_
    intro i j _ _ h0 h1
    obtain ⟨k, rfl⟩ : ∃ k : Nat, j = k := ⟨j.toNat, by omega⟩
    have hk : k < rs.length := by omega
    rw [putAll_eq, List.filter_map, List.map_map, Csr.lastAt, Csr.row_ofRows _ rs k hk,
      ← filter_triplesL2 rs k hk]
    congr 1
    simp only [Function.comp_def, sw]
    congr 1
    apply List.filter_congr
    intro t _
    simp [and_comm]

/-- The no-duplicates hypothesis is met by a matrix with an empty row and unsorted columns. -/
example : ∃ A : Csr Int, A.WF ∧ A.NoDup ∧ A.toDense = .ok ⟨3, 2, [5, 0, 7, 4, 0, 0]⟩ := by
  refine ⟨⟨3, 2, [0, 2, 2, 3], [1, 0, 0], [4, 5, 7]⟩, by decide, ?_, by decide⟩
  rw [Csr.WF.noDup_iff (by decide)]
  decide

/-! ## Sparse times dense -/

/-- **C14.**  `Mult(B, C)` leaves `C = A B`, whatever `C` was before. -/
theorem C14_multDenseInto [NonUnitalNonAssocSemiring R] (A : Csr R) (hA : A.WF) (B C : Dense R)
    (hB : B.WF) (hs : B.rows = A.cols) :
    ∃ E, A.multDenseInto B C = .ok E ∧
      E.Is A.rows B.cols (fun i k => ∑ j ∈ Finset.Ico 0 A.cols, A.coef i j * B.entry j k) := by
  obtain ⟨n, rs, hn, hrs, rfl⟩ := hA.exists_rows
  have hBi := hB.is_entry
  have hc := hB.cols_nonneg
  obtain ⟨K, hK⟩ : ∃ K : Nat, B.cols = K := ⟨B.cols.toNat, by omega⟩
  obtain ⟨f, hf⟩ := Dense.setSize_ofFn C rs.length K
  refine ⟨_, ?_, by rw [hK]; exact Dense.is_ofFn rs.length K _⟩
  unfold Csr.multDenseInto
  rw [cassert_true hs, ok_bind, hK]
  have e : C.setSize (Csr.ofRows n rs).rows (K : Int) = _ := hf
  rw [e, ok_bind]
  simp only [Dense.fill_ofFn]
  refine Dense.fullLoop (m := rs.length) (n := K) _ _ (fun i k D => _) ?_
  intro i k h hi0 hi1 hk0 hk1 _
  obtain ⟨p, rfl⟩ : ∃ p : Nat, i = p := ⟨i.toNat, by omega⟩
  rw [rowDot_ofRows hrs p (by omega) (fun c => B.get c k) (fun c => B.entry c k)
    (fun c h0 h1 => hBi.get_eq c k h0 (by rw [hs]; exact h1) hk0 (by omega)), ok_bind]
  rfl

/-- **C14.**  `MultCT(B, C)` leaves `C = (A B)ᵀ`, whatever `C` was before. -/
theorem C14_multCTDenseInto [NonUnitalNonAssocSemiring R] (A : Csr R) (hA : A.WF) (B C : Dense R)
    (hB : B.WF) (hs : B.rows = A.cols) :
    ∃ E, A.multCTDenseInto B C = .ok E ∧
      E.Is B.cols A.rows (fun k i => ∑ j ∈ Finset.Ico 0 A.cols, A.coef i j * B.entry j k) := by
  obtain ⟨n, rs, hn, hrs, rfl⟩ := hA.exists_rows
  have hBi := hB.is_entry
  have hc := hB.cols_nonneg
  obtain ⟨K, hK⟩ : ∃ K : Nat, B.cols = K := ⟨B.cols.toNat, by omega⟩
  obtain ⟨f, hf⟩ := Dense.setSize_ofFn C K rs.length
  refine ⟨_, ?_, by rw [hK]; exact Dense.is_ofFn K rs.length _⟩
  unfold Csr.multCTDenseInto
  rw [cassert_true hs, ok_bind, hK]
  have e : C.setSize (K : Int) (Csr.ofRows n rs).rows = _ := hf
  rw [e, ok_bind]
  simp only [Dense.fill_ofFn]
  refine Dense.fullLoopRow (m := K) (n := rs.length) _ _ (fun k i D => _) ?_
  intro k i h hk0 hk1 hi0 hi1 _
  obtain ⟨p, rfl⟩ : ∃ p : Nat, i = p := ⟨i.toNat, by omega⟩
  rw [rowDot_ofRows hrs p (by omega) (fun c => B.get c k) (fun c => B.entry c k)
    (fun c h0 h1 => hBi.get_eq c k h0 (by rw [hs]; exact h1) hk0 (by omega)), ok_bind]
  rfl

/-- **C14.**  `MultAT(B, C)` leaves `C = Aᵀ B`, whatever `C` was before. -/
theorem C14_multATDenseInto [NonUnitalNonAssocSemiring R] (A : Csr R) (hA : A.WF) (B C : Dense R)
    (hB : B.WF) (hs : B.rows = A.rows) :
    ∃ E, A.multATDenseInto B C = .ok E ∧
      E.Is A.cols B.cols (fun j k => ∑ i ∈ Finset.Ico 0 A.rows, A.coef i j * B.entry i k) := by
  obtain ⟨n, rs, hn, hrs, rfl⟩ := hA.exists_rows
  obtain ⟨N, rfl⟩ : ∃ N : Nat, n = N := ⟨n.toNat, by omega⟩
  have hBi := hB.is_entry
  have hc := hB.cols_nonneg
  have hT := triplesL_ok hrs
  have hs' : B.rows = (rs.length : Int) := hs
  obtain ⟨K, hK⟩ : ∃ K : Nat, B.cols = K := ⟨B.cols.toNat, by omega⟩
  obtain ⟨f, hf⟩ := Dense.setSize_ofFn C N K
  have hcols : (Csr.ofRows (N : Int) rs).cols = (N : Int) := rfl
  refine ⟨_, ?_, by rw [hK]; exact Dense.is_ofFn N K _⟩
  unfold Csr.multATDenseInto
  rw [cassert_true hs, ok_bind, hK]
  have e : C.setSize (Csr.ofRows (N : Int) rs).cols (K : Int) = _ := hf
  rw [e, ok_bind]
  simp only [Dense.fill_ofFn]
  let F : Int → Int → R := fun a b =>
    ∑ i ∈ Finset.Ico 0 (rs.length : Int), (Csr.ofRows (N : Int) rs).coef i a * B.entry i b
  have e0 : Dense.ofFn N K (fun _ _ => (0 : R))
      = Dense.ofFn N K (fun a b => if b < 0 then F a b else 0) := by
    apply Dense.ofFn_congr; intros; rw [if_neg (by omega)]
  have e1 : Dense.ofFn N K (fun j k => ∑ i ∈ Finset.Ico 0 (Csr.ofRows (N : Int) rs).rows,
        (Csr.ofRows (N : Int) rs).coef i j * B.entry i k)
      = Dense.ofFn N K (fun a b => if b < (K : Int) then F a b else 0) := by
    apply Dense.ofFn_congr; intros; rw [if_pos (by omega)]; rfl
  rw [e0, e1]
  refine forUp_seq (by omega) (fun k => Dense.ofFn N K (fun a b => if b < k then F a b else 0)) ?_
  intro k hk0 hk1
  rw [rowLoop_ofRows (N : Int) rs _ _ (fun i e D => do
      let x ← B.get i k
      let old ← D.get e.1 k
      D.put e.1 k (old + e.2 * x))]
  · rw [foldlM_congr _ (g := fun D t => do
        let old ← D.get t.2.1 k
        D.put t.2.1 k (old + t.2.2 * (fun i => B.entry i k) t.1)) (by
      intro t ht s
      have := hT t ht
      rw [hBi.get_eq t.1 k this.1.1 (by omega) hk0 (by omega)]; rfl)]
    rw [foldlM_scatter_col (triplesL rs) (fun i => B.entry i k) k hk0 hk1 _ (fun t ht => (hT t ht).2)]
    congr 1
    apply Dense.ofFn_congr
    intro a b _ _ _ _
    by_cases hb : b = k
    · rw [if_pos hb, if_neg (by omega), if_pos (by omega), zero_add, hb,
        rowCoef_scatter (N : Int) rs (fun i => B.entry i k)]
    · rw [if_neg hb]
      congr 1; apply propext; omega
  · intro p m hp hm s
    rw [rd_data_ofRows _ rs p m hp hm, rd_indices_ofRows _ rs p m hp hm]
    rfl

/-- **C14.**  The forms that return a new matrix. -/
theorem C14_multDense [NonUnitalNonAssocSemiring R] (A : Csr R) (hA : A.WF) (B : Dense R)
    (hB : B.WF) (hs : B.rows = A.cols) :
    (∃ E, A.multDense B = .ok E ∧
      E.Is A.rows B.cols (fun i k => ∑ j ∈ Finset.Ico 0 A.cols, A.coef i j * B.entry j k)) ∧
    (∃ E, A.multCTDense B = .ok E ∧
      E.Is B.cols A.rows (fun k i => ∑ j ∈ Finset.Ico 0 A.cols, A.coef i j * B.entry j k)) := by
  have h1 := hA.rows_nonneg
  have h2 := hB.cols_nonneg
  have z1 := Dense.zeros_ofFn (α := R) A.rows.toNat B.cols.toNat
  have z2 := Dense.zeros_ofFn (α := R) B.cols.toNat A.rows.toNat
  rw [show ((A.rows.toNat : Nat) : Int) = A.rows by omega,
    show ((B.cols.toNat : Nat) : Int) = B.cols by omega] at z1 z2
  constructor
  · unfold Csr.multDense
    rw [z1, ok_bind]
    exact C14_multDenseInto A hA B _ hB hs
  · unfold Csr.multCTDense
    rw [z2, ok_bind]
    exact C14_multCTDenseInto A hA B _ hB hs

/-- **C14.**  The form of `MultAT` that returns a new matrix. -/
theorem C14_multATDense [NonUnitalNonAssocSemiring R] (A : Csr R) (hA : A.WF) (B : Dense R)
    (hB : B.WF) (hs : B.rows = A.rows) :
    ∃ E, A.multATDense B = .ok E ∧
      E.Is A.cols B.cols (fun j k => ∑ i ∈ Finset.Ico 0 A.rows, A.coef i j * B.entry i k) := by
  have h1 := hA.cols_nonneg
  have h2 := hB.cols_nonneg
  have z1 := Dense.zeros_ofFn (α := R) A.cols.toNat B.cols.toNat
  rw [show ((A.cols.toNat : Nat) : Int) = A.cols by omega,
    show ((B.cols.toNat : Nat) : Int) = B.cols by omega] at z1
  unfold Csr.multATDense
  rw [z1, ok_bind]
  exact C14_multATDenseInto A hA B _ hB hs

/-- **C14.**  Operands of the wrong shape are rejected. -/
theorem C14_multDense_rejects [NonUnitalNonAssocSemiring R] (A : Csr R) (B C : Dense R) :
    (B.rows ≠ A.cols → A.multDenseInto B C = .error .assertFail ∧
      A.multCTDenseInto B C = .error .assertFail) ∧
    (B.rows ≠ A.rows → A.multATDenseInto B C = .error .assertFail) := by
  refine ⟨fun h => ⟨?_, ?_⟩, fun h => ?_⟩
  · unfold Csr.multDenseInto; rw [cassert_false h]; rfl
  · unfold Csr.multCTDenseInto; rw [cassert_false h]; rfl
  · unfold Csr.multATDenseInto; rw [cassert_false h]; rfl

/-- The hypotheses of C14 are met by a 2 x 3 sparse matrix with a duplicated column and 3 x 2 / 2 x 2 dense ones. -/
example : ∃ (A : Csr Int) (B B' : Dense Int), A.WF ∧ B.WF ∧ B'.WF ∧ B.rows = A.cols ∧ B'.rows = A.rows ∧
    A.multDense B = .ok ⟨2, 2, [14, 0, 29, 0]⟩ ∧ A.multCTDense B = .ok ⟨2, 2, [14, 29, 0, 0]⟩ ∧
    A.multATDense B' = .ok ⟨3, 2, [3, 0, 4, 9, 0, 12]⟩ :=
  ⟨⟨2, 3, [0, 3, 3], [0, 2, 0], [1, 4, 2]⟩, ⟨3, 2, [2, 0, 2, 3, 0, 5]⟩, ⟨2, 2, [1, 2, 3, 4]⟩,
    by decide, by decide, by decide, by decide, by decide, by decide, by decide, by decide⟩

end Linalg
