import Verif.Proof.Lil
import Verif.Props.Coo

/-!
# List-of-lists matrices (C23 - C26)
-/

namespace Linalg
open Cpp

variable {α R : Type}

theorem Lil.coef_eq [AddMonoid R] (L : Lil R) {i : Int} (h0 : 0 ≤ i) (j : Int) :
    L.coef i j = rowCoef (L.entries.getD i.toNat []) j := by
  unfold Lil.coef
  by_cases h : i < L.entries.length
  · rw [rd_int h0 h, List.getD_eq_getElem?_getD, List.getElem?_eq_getElem (by omega)]
    rfl
  · rw [rd_oob (Or.inr (by omega)), List.getD_eq_getElem?_getD, List.getElem?_eq_none (by omega)]
    rfl

theorem Lil.coef_neg [AddMonoid R] (L : Lil R) {i : Int} (h0 : i < 0) (j : Int) : L.coef i j = 0 := by
  unfold Lil.coef
  rw [rd_oob (Or.inl h0)]

theorem Lil.coef_nat [AddMonoid R] (L : Lil R) (k : Nat) (h : k < L.entries.length) (j : Int) :
    L.coef (k : Int) j = rowCoef L.entries[k] j := by
  rw [Lil.coef_eq L (by omega)]
  simp [h]

theorem Lil.coef_big [AddMonoid R] (L : Lil R) {i : Int} (h : (L.entries.length : Int) ≤ i) (j : Int) :
    L.coef i j = 0 := by
  unfold Lil.coef
  rw [rd_oob (Or.inr h)]

/-! ## C24 -/

/-- One accepted add to a well-formed matrix. -/
theorem Lil.add_wf {L : Lil α} (hL : L.WF) {i j : Int} {v : α} (hi : 0 ≤ i) (hi' : i < L.rows) (hj : 0 ≤ j)
    (hj' : j < L.cols) :
    ∃ h : i.toNat < L.entries.length,
      L.add i j v = .ok { L with entries := L.entries.set i.toNat ((j, v) :: L.entries[i.toNat]) } := by
  have hlen := hL.rows_len
  refine ⟨by omega, ?_⟩
  unfold Lil.add
  rw [cassert_true hi, cassert_true hj]
  simp only [ok_bind]
  rw [if_pos hL.sized, cassert_true hi', cassert_true hj']
  simp only [ok_bind]
  rw [rd_int hi (by omega), ok_bind, wr_int hi (by omega), ok_bind]

theorem Lil.add_inv {L L' : Lil α} (hL : L.WF) {i j : Int} {v : α} (h : L.add i j v = .ok L') :
    0 ≤ i ∧ i < L.rows ∧ 0 ≤ j ∧ j < L.cols := by
  unfold Lil.add at h
  by_cases hi : i ≥ 0
  · rw [cassert_true hi, ok_bind] at h
    by_cases hj : j ≥ 0
    · rw [cassert_true hj, ok_bind, if_pos hL.sized] at h
      by_cases hr : i < L.rows
      · rw [cassert_true hr, ok_bind] at h
        by_cases hc : j < L.cols
        · exact ⟨hi, hr, hj, hc⟩
        · rw [cassert_false hc] at h; cases h
      · rw [cassert_false hr] at h; cases h
    · rw [cassert_false hj] at h; cases h
  · rw [cassert_false hi] at h; cases h

theorem Lil.add_effect [AddCommMonoid R] {L L' : Lil R} (hL : L.WF) {i j : Int} {v : R} (h : L.add i j v = .ok L') :
    L'.WF ∧ L'.rows = L.rows ∧ L'.cols = L.cols ∧
      ∀ a b, L'.coef a b = L.coef a b + (if i = a ∧ j = b then v else 0) := by
  obtain ⟨hi, hi', hj, hj'⟩ := Lil.add_inv hL h
  obtain ⟨hlt, e⟩ := Lil.add_wf (v := v) hL hi hi' hj hj'
  rw [e] at h
  obtain rfl := Except.ok.inj h
  refine ⟨⟨hL.sized, by simpa using hL.rows_len, hL.cols_nonneg, ?_⟩, rfl, rfl, ?_⟩
  · intro r hr e he
    rcases List.mem_or_eq_of_mem_set hr with hr | rfl
    · exact hL.cols_ok r hr e he
    · simp only [List.mem_cons] at he
      rcases he with rfl | he
      · exact ⟨hj, hj'⟩
      · exact hL.cols_ok _ (List.getElem_mem hlt) e he
  · intro a b
    by_cases ha : 0 ≤ a
    · by_cases ha' : a < L.entries.length
      · obtain ⟨k, rfl⟩ : ∃ k : Nat, a = k := ⟨a.toNat, by omega⟩
        rw [Lil.coef_nat _ k (by simpa using ha'), Lil.coef_nat L k (by omega)]
        simp only [List.getElem_set]
        by_cases hk : i.toNat = k
        · subst hk
          rw [if_pos rfl, rowCoef_cons, add_comm]
          congr 1
          rw [show ((i.toNat : Nat) : Int) = i by omega]
          simp
        · rw [if_neg hk, if_neg (fun x => hk (by omega)), add_zero]
      · have := hL.rows_len
        rw [Lil.coef_big _ (by simp; omega), Lil.coef_big L (by omega), if_neg (fun x => ha' (by omega)), add_zero]
    · rw [Lil.coef_neg _ (by omega), Lil.coef_neg L (by omega), if_neg (fun x => ha (by omega)), add_zero]

/-- **C24.**  Every accepted sequence of adds to a matrix constructed with a size gives a well-formed matrix of
that size whose coefficients are the sums of the added values. -/
theorem C24_history [AddCommMonoid R] (r c : Int) (L0 L : Lil R) (l : List (Int × Int × R))
    (h0 : Lil.ofSize r c = .ok L0) (h : L0.addAll l = .ok L) :
    L.WF ∧ L.findSize = (r, c) ∧ ∀ i j, L.coef i j = tripleCoef l i j := by
  have hb : L0.WF ∧ L0.rows = r ∧ L0.cols = c ∧ ∀ i j, L0.coef i j = 0 := by
    unfold Lil.ofSize at h0
    by_cases hr : r ≥ 0
    · by_cases hc : c ≥ 0
      · rw [cassert_true hr, cassert_true hc, mkVec_int hr] at h0
        obtain rfl := Except.ok.inj h0
        refine ⟨⟨rfl, by simp; omega, hc, ?_⟩, rfl, rfl, ?_⟩
        · intro x hx e he
          simp only [List.mem_replicate] at hx
          rw [hx.2] at he
          cases he
        · intro i j
          by_cases hi : 0 ≤ i
          · rw [Lil.coef_eq _ hi, List.getD_eq_getElem?_getD, List.getElem?_replicate]
            split <;> rfl
          · exact Lil.coef_neg _ (by omega) j
      · rw [cassert_true hr, cassert_false hc] at h0; cases h0
    · rw [cassert_false hr] at h0; cases h0
  suffices H : ∀ (l : List (Int × Int × R)) (L0 : Lil R), L0.WF → L0.rows = r → L0.cols = c → L0.addAll l = .ok L →
      L.WF ∧ L.rows = r ∧ L.cols = c ∧ ∀ i j, L.coef i j = L0.coef i j + tripleCoef l i j by
    obtain ⟨a, b, d, e⟩ := H l L0 hb.1 hb.2.1 hb.2.2.1 h
    refine ⟨a, ?_, fun i j => by rw [e, hb.2.2.2, zero_add]⟩
    unfold Lil.findSize
    rw [if_pos a.sized, b, d]
  intro l
  induction l with
  | nil =>
    intro L0 w hr hc h
    simp only [Lil.addAll, List.foldlM_nil, pure_eq_ok] at h
    obtain rfl := Except.ok.inj h
    exact ⟨w, hr, hc, fun i j => by simp⟩
  | cons e l ih =>
    intro L0 w hr hc h
    simp only [Lil.addAll, List.foldlM_cons] at h
    rw [bind_eq_ok] at h
    obtain ⟨D, h1, h2⟩ := h
    obtain ⟨d1, d2, d3, d4⟩ := Lil.add_effect w h1
    obtain ⟨a, b, d, f⟩ := ih D d1 (by omega) (by omega) h2
    exact ⟨a, b, d, fun i j => by rw [f, d4, tripleCoef_cons, add_assoc]⟩

/-- **C24.**  `ToSparse()` of a well-formed sized matrix: well-formed, same size, columns strictly increasing in
each row, same coefficients; the matrix itself keeps its size and its coefficients although its rows are reordered. -/
theorem C24_toSparse [AddCommMonoid R] (sort : List (Int × R) → List (Int × R)) (hsort : IsRowSort sort)
    (L : Lil R) (hL : L.WF) :
    ∃ A L', L.toSparse sort = .ok (A, L') ∧ A.WF ∧ A.rows = L.rows ∧ A.cols = L.cols ∧
      (∀ i, ((A.row i).map Prod.fst).Pairwise (· < ·)) ∧ (∀ i j, A.coef i j = L.coef i j) ∧
      (L'.WF ∧ L'.rows = L.rows ∧ L'.cols = L.cols) ∧ ∀ i j, L'.coef i j = L.coef i j := by
  have hlen := hL.rows_len
  have hok : ∀ r ∈ lilRows sort L.entries, ∀ e ∈ r, 0 ≤ e.1 ∧ e.1 < L.cols := by
    intro r hr
    obtain ⟨r0, h0, rfl⟩ := List.mem_map.mp hr
    exact foldl_mergeIn_cols _ _ (fun c => 0 ≤ c ∧ c < L.cols) (by simp)
      (fun e he => hL.cols_ok r0 h0 e ((hsort r0).1.mem_iff.mp he))
  have hwf := Csr.wf_ofRows hL.cols_nonneg hok
  refine ⟨_, _, Lil.toSparse_eq sort hsort L hL, hwf, by simp [Csr.ofRows, lilRows, hlen], rfl, ?_, ?_, ?_, ?_⟩
  · intro i
    by_cases hi : 0 ≤ i
    · rw [row_ofRows_getD _ _ hi]
      by_cases hi' : i.toNat < L.entries.length
      · rw [List.getD_eq_getElem?_getD, List.getElem?_eq_getElem (by simpa [lilRows] using hi')]
        simp only [lilRows, List.getElem_map, Option.getD_some, List.pairwise_map]
        exact foldl_mergeIn_sorted _ _ (by simp) (hsort _).2 (by simp)
      · rw [List.getD_eq_getElem?_getD, List.getElem?_eq_none (by simp [lilRows]; omega)]
        simp
    · have : (Csr.ofRows L.cols (lilRows sort L.entries)).row i = [] := by
        unfold Csr.row
        rw [rd_oob (Or.inl (by omega))]
      rw [this]; simp
  · intro i j
    by_cases hi : 0 ≤ i
    · rw [coef_ofRows_getD _ _ hi, Lil.coef_eq L hi]
      by_cases hi' : i.toNat < L.entries.length
      · rw [List.getD_eq_getElem?_getD, List.getElem?_eq_getElem (by simpa [lilRows] using hi'),
          List.getD_eq_getElem?_getD, List.getElem?_eq_getElem hi']
        simp only [lilRows, List.getElem_map, Option.getD_some]
        rw [rowCoef_foldl_mergeIn, rowCoef_nil, zero_add, rowCoef_perm (hsort _).1]
      · rw [List.getD_eq_getElem?_getD, List.getElem?_eq_none (by simp [lilRows]; omega),
          List.getD_eq_getElem?_getD, List.getElem?_eq_none (by omega)]
    · rw [Csr.coef_of_not_row hwf (by omega), Lil.coef_neg L (by omega)]
  · exact ⟨⟨hL.sized, by simpa using hL.rows_len, hL.cols_nonneg, by
      intro r hr e he
      obtain ⟨r0, h0, rfl⟩ := List.mem_map.mp hr
      exact hL.cols_ok r0 h0 e ((hsort r0).1.mem_iff.mp he)⟩, rfl, rfl⟩
  · intro i j
    by_cases hi : 0 ≤ i
    · rw [Lil.coef_eq _ hi, Lil.coef_eq L hi]
      by_cases hi' : i.toNat < L.entries.length
      · rw [List.getD_eq_getElem?_getD, List.getElem?_eq_getElem (by simpa using hi'),
          List.getD_eq_getElem?_getD, List.getElem?_eq_getElem hi']
        simp only [List.getElem_map, Option.getD_some]
        exact rowCoef_perm (hsort _).1 j
      · rw [List.getD_eq_getElem?_getD, List.getElem?_eq_none (by simp; omega),
          List.getD_eq_getElem?_getD, List.getElem?_eq_none (by omega)]
    · rw [Lil.coef_neg _ (by omega), Lil.coef_neg L (by omega)]

/-- The loop of `ToDense()` adds up all rows. -/
theorem lil_dense_loop [AddCommMonoid R] (L : Lil R) (m n : Nat) (hm : L.entries.length ≤ m)
    (hc : ∀ r ∈ L.entries, ∀ e ∈ r, 0 ≤ e.1 ∧ e.1 < (n : Int)) :
    forUp 0 (L.entries.length : Int) (Dense.ofFn m n (fun _ _ => (0 : R))) (fun i D => do
      let row ← rd L.entries i
      row.foldlM (fun (D : Dense R) node => do
        let old ← D.get i node.1
        D.put i node.1 (old + node.2)) D)
      = .ok (Dense.ofFn m n (fun i j => L.coef i j)) := by
  have e0 : Dense.ofFn m n (fun _ _ => (0 : R)) = Dense.ofFn m n (fun i j => if i < 0 then L.coef i j else 0) :=
    Dense.ofFn_congr (fun i j h0 _ _ _ => by rw [if_neg (by omega)])
  rw [e0]
  have := forUp_seq (n := (L.entries.length : Int)) (by omega) (body := fun i (D : Dense R) => do
      let row ← rd L.entries i
      row.foldlM (fun (D : Dense R) node => do
        let old ← D.get i node.1
        D.put i node.1 (old + node.2)) D)
    (fun k => Dense.ofFn m n (fun i j => if i < k then L.coef i j else 0)) (by
    intro k k0 k1
    obtain ⟨p, rfl⟩ : ∃ p : Nat, k = p := ⟨k.toNat, by omega⟩
    have hp : p < L.entries.length := by omega
    rw [rd_nat hp, ok_bind]
    have := foldlM_add (m := m) (n := n) (L.entries[p].map (fun e => ((p : Int), e)))
      (fun i j => if i < (p : Int) then L.coef i j else 0) (by
        intro t ht
        obtain ⟨e, he, rfl⟩ := List.mem_map.mp ht
        exact ⟨⟨by simp, by simp only; omega⟩, hc _ (List.getElem_mem hp) e he⟩)
    rw [List.foldlM_map] at this
    rw [this]
    congr 1
    apply Dense.ofFn_congr
    intro i j _ _ _ _
    rw [List.filter_map, List.map_map]
    by_cases hip : i = (p : Int)
    · subst hip
      rw [if_neg (by omega), if_pos (by omega), zero_add, Lil.coef_nat L p hp]
      simp [rowCoef, Function.comp_def]
    · have : (L.entries[p].filter ((fun t : Int × Int × R => decide (t.1 = i ∧ t.2.1 = j)) ∘ fun e => ((p : Int), e))) = [] := by
        rw [List.filter_eq_nil_iff]
        intro e _
        simp [Ne.symm hip]
      rw [this]
      simp only [List.map_nil, List.sum_nil, add_zero]
      by_cases h : i < (p : Int)
      · rw [if_pos h, if_pos (by omega)]
      · rw [if_neg h, if_neg (by omega)])
  refine this.trans ?_
  congr 1
  apply Dense.ofFn_congr
  intro i j _ _ _ _
  by_cases h : i < (L.entries.length : Int)
  · rw [if_pos h]
  · rw [if_neg h, Lil.coef_big L (by omega)]

/-- **C24.**  `ToDense()` has the same coefficients, whatever the target held before. -/
theorem C24_toDense [AddCommMonoid R] (L : Lil R) (hL : L.WF) (out : Dense R) :
    ∃ D, L.toDenseInto out = .ok D ∧ D.Is L.rows L.cols (fun i j => L.coef i j) := by
  have hlen := hL.rows_len
  obtain ⟨n, hn⟩ : ∃ n : Nat, L.cols = n := ⟨L.cols.toNat, by have := hL.cols_nonneg; omega⟩
  have hfs : L.findSize = (L.rows, L.cols) := by unfold Lil.findSize; rw [if_pos hL.sized]
  have hc := hL.cols_ok
  rw [hn] at hc
  refine ⟨Dense.ofFn L.entries.length n (fun i j => L.coef i j), ?_, by rw [← hlen, hn]; exact Dense.is_ofFn _ _ _⟩
  unfold Lil.toDenseInto
  rw [hfs]
  simp only
  rw [← hlen, hn]
  obtain ⟨f, hf⟩ := Dense.setSize_ofFn out L.entries.length n
  rw [hf, ok_bind, Dense.fill_ofFn]
  exact lil_dense_loop L _ n le_rfl hc

/-- **C24.**  `Mult` computes the product with the represented matrix, whatever the output held before. -/
theorem C24_mult [NonUnitalNonAssocSemiring R] (L : Lil R) (hL : L.WF) (x y : List R)
    (hx : (x.length : Int) = L.cols) (hy : (y.length : Int) = L.rows) :
    ∃ y', L.mult x y = .ok y' ∧ VecIs y' L.rows (fun i => ∑ j ∈ Finset.Ico 0 L.cols, L.coef i j * vecAt x j) := by
  have hlen := hL.rows_len
  have hfs : L.findSize = (L.rows, L.cols) := by unfold Lil.findSize; rw [if_pos hL.sized]
  refine ⟨vecFn y.length (fun i => ∑ j ∈ Finset.Ico 0 L.cols, L.coef i j * vecAt x j), ?_,
    by rw [← hy]; exact is_vecFn _ _⟩
  unfold Lil.mult
  rw [hfs, cassert_true hy.symm, cassert_true hx.symm]
  simp only [ok_bind, replicate_vecFn]
  rw [show (L.entries.length : Int) = (y.length : Int) by omega]
  apply fillLoop'
  intro i h h0 h1 hh
  obtain ⟨k, rfl⟩ : ∃ k : Nat, i = k := ⟨i.toNat, by omega⟩
  have hk : k < L.entries.length := by omega
  have hok := hL.cols_ok _ (List.getElem_mem hk)
  rw [rd_nat hk, ok_bind, foldlM_addAt (n := y.length) L.entries[k] (fun _ => (k : Int)) (fun e => e.2 * vecAt x e.1)
    (fun e he => ⟨h0, h1⟩) h _ (by
      intro out e he
      have := hok e he
      rw [vrd_vecAt x this.1 (by omega), ok_bind])]
  congr 1
  apply vecFn_congr
  intro a _ _
  by_cases ha : a = (k : Int)
  · subst ha
    simp only [if_true]
    rw [hh, zero_add, sum_row_eq (n := L.cols) hok]
    exact Finset.sum_congr rfl (fun j _ => by rw [Lil.coef_nat L k hk])
  · simp [ha, Ne.symm ha]

/-- C24: unsorted adds with a duplicate. -/
example : ∃ (L0 L : Lil Int), Lil.ofSize 2 3 = .ok L0 ∧
    L0.addAll [(0, 2, 5), (0, 0, 1), (1, 1, 4), (0, 2, 7)] = .ok L ∧ L.WF ∧
    L.toSparse (fun r => r.insertionSort (fun a b => a.1 ≤ b.1))
      = .ok (⟨2, 3, [0, 2, 3], [0, 2, 1], [1, 12, 4]⟩, ⟨2, 3, true, [[(0, 1), (2, 7), (2, 5)], [(1, 4)]]⟩) :=
  ⟨⟨2, 3, true, [[], []]⟩, ⟨2, 3, true, [[(2, 7), (0, 1), (2, 5)], [(1, 4)]]⟩, by decide, by decide, by decide,
    by decide⟩

/-- C24: the sorting hypothesis is satisfiable. -/
example : IsRowSort (fun r : List (Int × Int) => r.insertionSort (fun a b => a.1 ≤ b.1)) := by
  intro l
  refine ⟨List.perm_insertionSort _ _, ?_⟩
  haveI : Std.Total (fun a b : Int × Int => a.1 ≤ b.1) := ⟨fun a b => le_total a.1 b.1⟩
  haveI : IsTrans (Int × Int) (fun a b => a.1 ≤ b.1) := ⟨fun a b c h1 h2 => le_trans h1 h2⟩
  exact List.pairwise_insertionSort _ _

/-! ## C21, list-of-lists part -/

/-- **C21 (partial).**  `LilMatrix::MultAT`, square case; the rectangular case fails as for `CooMatrix`. -/
theorem C21_lil_multAT_partial [NonUnitalNonAssocSemiring R] (L : Lil R) (hL : L.WF) (hsq : L.rows = L.cols)
    (x y : List R) (hx : (x.length : Int) = L.rows) (hy : (y.length : Int) = L.cols) :
    ∃ y', L.multAT x y = .ok y' ∧ VecIs y' L.cols (fun j => ∑ i ∈ Finset.Ico 0 L.rows, L.coef i j * vecAt x i) := by
  have hlen := hL.rows_len
  have hfs : L.findSize = (L.rows, L.cols) := by unfold Lil.findSize; rw [if_pos hL.sized]
  refine ⟨vecFn y.length (fun j => ∑ i ∈ Finset.Ico 0 L.rows, L.coef i j * vecAt x i), ?_,
    by rw [← hy]; exact is_vecFn _ _⟩
  unfold Lil.multAT
  rw [hfs, cassert_true (by simp only; omega), cassert_true (by simp only; omega)]
  simp only [ok_bind, replicate_vecFn]
  have e0 : vecFn y.length (fun _ => (0 : R))
      = vecFn y.length (fun j => ∑ i ∈ Finset.Ico (0 : Int) 0, L.coef i j * vecAt x i) := by simp
  rw [e0, hlen]
  refine forUp_seq (n := L.rows) (by omega)
    (fun k => vecFn y.length (fun j => ∑ i ∈ Finset.Ico (0 : Int) k, L.coef i j * vecAt x i)) ?_
  intro i h0 h1
  obtain ⟨k, rfl⟩ : ∃ k : Nat, i = k := ⟨i.toNat, by omega⟩
  have hk : k < L.entries.length := by omega
  have hok := hL.cols_ok _ (List.getElem_mem hk)
  rw [rd_nat hk, ok_bind, foldlM_addAt (n := y.length) L.entries[k] (fun e => e.1) (fun e => e.2 * vecAt x (k : Int))
    (fun e he => by have := hok e he; omega) _ _ (by
      intro out e he
      rw [vrd_vecAt x h0 (by omega), ok_bind])]
  congr 1
  apply vecFn_congr
  intro j _ _
  rw [sum_Ico_succ _ h0, Lil.coef_nat L k hk]
  congr 1
  generalize L.entries[k] = r
  induction r with
  | nil => simp
  | cons e r ih =>
    rw [List.map_cons, List.sum_cons, rowCoef_cons, ih, add_mul]
    by_cases h : e.1 = j <;> simp [h]

/-- **C21.**  On a rectangular `LilMatrix` every correctly sized call is rejected. -/
theorem C21_lil_rectangular_false [NonUnitalNonAssocSemiring R] (L : Lil R) (hL : L.WF) (hne : L.rows ≠ L.cols)
    (x y : List R) (hy : (y.length : Int) = L.cols) : L.multAT x y = .error .assertFail := by
  have hfs : L.findSize = (L.rows, L.cols) := by unfold Lil.findSize; rw [if_pos hL.sized]
  unfold Lil.multAT
  rw [hfs, cassert_false (fun e => hne (by simp only at e; omega))]; rfl

/-- C21: a square list-of-lists matrix. -/
example : ∃ L : Lil Int, L.WF ∧ L.rows = L.cols ∧ L.multAT [1, 10] [7, 7] = .ok [20, 3] :=
  ⟨⟨2, 2, true, [[(1, 3)], [(0, 2)]]⟩, by decide, by decide, by decide⟩

/-! ## C23, list-of-lists part -/

/-- **C23 (partial).**  Exact effect on a `LilMatrix`: in each row the nodes with `|v| < tol` go, the others stay
in order.  Missing, as for `CooMatrix`: nodes with `|v| = tol`. -/
theorem C23_lil_partial [LinearOrder R] [AddGroup R] (L : Lil R) (tol : R) (k : Nat) (hk : k < L.entries.length) :
    ∃ h : k < (L.eliminateZeros tol).entries.length,
      (∀ e, e ∈ (L.eliminateZeros tol).entries[k] ↔ e ∈ L.entries[k] ∧ tol ≤ |e.2|) ∧
      (L.eliminateZeros tol).entries[k].Sublist L.entries[k] ∧
      (L.eliminateZeros tol).entries.length = L.entries.length := by
  refine ⟨by simpa [Lil.eliminateZeros] using hk, ?_, ?_, by simp [Lil.eliminateZeros]⟩
  · intro e
    simp [Lil.eliminateZeros]
  · simp only [Lil.eliminateZeros, List.getElem_map]
    exact List.filter_sublist

/-- **C23.**  With the default tolerance 0 nothing is ever removed. -/
theorem C23_lil_default [LinearOrder R] [AddCommGroup R] [IsOrderedAddMonoid R] (L : Lil R) :
    L.eliminateZeros 0 = L := by
  unfold Lil.eliminateZeros
  cases L
  simp only [Lil.mk.injEq, true_and]
  rw [List.map_congr_left (g := id)]
  · simp
  · intro r _
    rw [id, List.filter_eq_self]
    intro e _
    simp

/-- **C23.**  A stored zero survives. -/
theorem C23_lil_false : ∃ L : Lil Int, L.WF ∧ ∃ r ∈ (L.eliminateZeros 0).entries, ∃ e ∈ r, e.2 = 0 :=
  ⟨⟨1, 1, true, [[(0, 0)]]⟩, by decide, [(0, 0)], by decide, (0, 0), by decide, rfl⟩

/-! ## C25 -/

/-- The largest column, with 0. -/
theorem foldl_max_col (es : List (List (Int × α))) (m : Int) :
    let M := es.foldl (fun m row => row.foldl (fun (m : Int) (e : Int × α) => max m e.1) m) m
    m ≤ M ∧ (∀ r ∈ es, ∀ e ∈ r, e.1 ≤ M) ∧ (M = m ∨ ∃ r ∈ es, ∃ e ∈ r, M = e.1) := by
  have hrow : ∀ (row : List (Int × α)) (m : Int),
      m ≤ row.foldl (fun (m : Int) (e : Int × α) => max m e.1) m ∧
      (∀ e ∈ row, e.1 ≤ row.foldl (fun (m : Int) (e : Int × α) => max m e.1) m) ∧
      (row.foldl (fun (m : Int) (e : Int × α) => max m e.1) m = m ∨
        ∃ e ∈ row, row.foldl (fun (m : Int) (e : Int × α) => max m e.1) m = e.1) := by
    intro row
    induction row with
    | nil => intro m; simp
    | cons e row ih =>
      intro m
      obtain ⟨a, b, c⟩ := ih (max m e.1)
      rw [List.foldl_cons]
      refine ⟨le_trans (le_max_left _ _) a, ?_, ?_⟩
      · intro x hx
        simp only [List.mem_cons] at hx
        rcases hx with rfl | hx
        · exact le_trans (le_max_right _ _) a
        · exact b x hx
      · rcases c with c | ⟨x, hx, c⟩
        · rcases le_total m e.1 with h | h
          · right; exact ⟨e, by simp, by rw [c, max_eq_right h]⟩
          · left; rw [c, max_eq_left h]
        · right; exact ⟨x, by simp [hx], c⟩
  induction es generalizing m with
  | nil => simp
  | cons r es ih =>
    obtain ⟨a, b, c⟩ := hrow r m
    obtain ⟨a', b', c'⟩ := ih (r.foldl (fun (m : Int) (e : Int × α) => max m e.1) m)
    simp only [List.foldl_cons]
    refine ⟨le_trans a a', ?_, ?_⟩
    · intro x hx e he
      simp only [List.mem_cons] at hx
      rcases hx with rfl | hx
      · exact le_trans (b e he) a'
      · exact b' x hx e he
    · rcases c' with c' | ⟨x, hx, e, he, c'⟩
      · rcases c with c | ⟨e, he, c⟩
        · left; rw [c', c]
        · right; exact ⟨r, by simp, e, he, by rw [c', c]⟩
      · right; exact ⟨x, by simp [hx], e, he, c'⟩

theorem Lil.findSize_unsized {L : Lil α} (hs : L.sizeSet = false)
    (hc : ∀ r ∈ L.entries, ∀ e ∈ r, 0 ≤ e.1) :
    L.findSize.1 = (L.entries.length : Int) + 1 ∧ 0 ≤ L.findSize.2 ∧
      ∀ r ∈ L.entries, ∀ e ∈ r, 0 ≤ e.1 ∧ e.1 < L.findSize.2 := by
  have hf := foldl_max_col L.entries 0
  unfold Lil.findSize
  rw [hs]
  simp only [Bool.false_eq_true, if_false]
  simp only at hf
  refine ⟨trivial, by have := hf.1; omega, fun r hr e he => ⟨hc r hr e he, ?_⟩⟩
  have := hf.2.1 r hr e he
  omega

/-- **C25.**  The claim is false.  Any accepted adds to an unsized matrix leave a non-empty last row, so
`entries.length` is the least row count; the reported count is one more, for *every* unsized matrix. -/
theorem C25_rows_false (L : Lil α) (hs : L.sizeSet = false) : L.findSize.1 = (L.entries.length : Int) + 1 := by
  unfold Lil.findSize
  rw [hs]
  rfl

/-- An unsized matrix that holds entries: the last row has one and every column is non-negative. -/
structure Lil.Unsized (L : Lil α) : Prop where
  unsized : L.sizeSet = false
  cols_nonneg : ∀ r ∈ L.entries, ∀ e ∈ r, 0 ≤ e.1
  last : ∃ r, L.entries.getLast? = some r ∧ r ≠ []

/-- **C25.**  Every accepted, non-empty sequence of adds to a new matrix gives such a matrix, whose row storage
reaches exactly the largest added row. -/
theorem C25_history (L : Lil α) (l : List (Int × Int × α)) (hl : l ≠ []) (h : Lil.new.addAll l = .ok L) :
    L.Unsized ∧ (∀ e ∈ l, 0 ≤ e.1 ∧ 0 ≤ e.2.1 ∧ e.1 < (L.entries.length : Int)) ∧
      ∃ e ∈ l, e.1 + 1 = (L.entries.length : Int) := by
  suffices H : ∀ (pre post : List (Int × Int × α)) (L0 : Lil α),
      (L0.sizeSet = false ∧ (∀ r ∈ L0.entries, ∀ e ∈ r, 0 ≤ e.1) ∧
        (∀ e ∈ pre, 0 ≤ e.1 ∧ 0 ≤ e.2.1 ∧ e.1 < (L0.entries.length : Int)) ∧
        ((pre = [] ∧ L0.entries = []) ∨ ((∃ r, L0.entries.getLast? = some r ∧ r ≠ []) ∧
          ∃ e ∈ pre, e.1 + 1 = (L0.entries.length : Int)))) →
      L0.addAll post = .ok L →
      (L.sizeSet = false ∧ (∀ r ∈ L.entries, ∀ e ∈ r, 0 ≤ e.1) ∧
        (∀ e ∈ pre ++ post, 0 ≤ e.1 ∧ 0 ≤ e.2.1 ∧ e.1 < (L.entries.length : Int)) ∧
        ((pre ++ post = [] ∧ L.entries = []) ∨ ((∃ r, L.entries.getLast? = some r ∧ r ≠ []) ∧
          ∃ e ∈ pre ++ post, e.1 + 1 = (L.entries.length : Int)))) by
    obtain ⟨a, b, c, d⟩ := H [] l Lil.new ⟨rfl, by simp [Lil.new], by simp, Or.inl ⟨rfl, rfl⟩⟩ h
    rw [List.nil_append] at c d
    rcases d with ⟨d, _⟩ | ⟨d, e⟩
    · exact absurd d hl
    · exact ⟨⟨a, b, d⟩, c, e⟩
  intro pre post
  induction post generalizing pre with
  | nil =>
    intro L0 hI h
    simp only [Lil.addAll, List.foldlM_nil, pure_eq_ok] at h
    obtain rfl := Except.ok.inj h
    simpa using hI
  | cons e post ih =>
    intro L0 ⟨a, b, c, d⟩ h
    simp only [Lil.addAll, List.foldlM_cons] at h
    rw [bind_eq_ok] at h
    obtain ⟨D, h1, h2⟩ := h
    rw [show pre ++ e :: post = (pre ++ [e]) ++ post by simp]
    refine ih (pre ++ [e]) D ?_ h2
    unfold Lil.add at h1
    by_cases hi : e.1 ≥ 0
    · by_cases hj : e.2.1 ≥ 0
      · rw [cassert_true hi, cassert_true hj] at h1
        simp only [ok_bind, a, Bool.false_eq_true, if_false] at h1
        generalize hes : (if e.1 ≥ (L0.entries.length : Int) then (.ok (resize L0.entries (e.1 + 1).toNat []) : Res _)
            else .ok L0.entries) = es0 at h1
        have hes' : ∃ es, es0 = .ok es ∧ es.length = max L0.entries.length (e.1 + 1).toNat ∧
            (∀ r ∈ es, r = [] ∨ r ∈ L0.entries) ∧ (e.1 < (L0.entries.length : Int) → es = L0.entries) := by
          rw [← hes]
          by_cases hg : e.1 ≥ (L0.entries.length : Int)
          · rw [if_pos hg]
            refine ⟨_, rfl, ?_, ?_, fun hlt => absurd hlt (by omega)⟩
            · simp [resize]; omega
            · intro r hr
              simp only [resize, List.mem_append, List.mem_replicate] at hr
              rcases hr with hr | hr
              · right; exact List.mem_of_mem_take hr
              · left; exact hr.2
          · rw [if_neg hg]
            exact ⟨_, rfl, by omega, fun r hr => Or.inr hr, fun _ => rfl⟩
        obtain ⟨es, he0, hlen, hmem, hsame⟩ := hes'
        rw [he0] at h1
        simp only [ok_bind] at h1
        have hlt : e.1.toNat < es.length := by omega
        rw [rd_int hi (by omega), ok_bind, wr_int hi (by omega), ok_bind] at h1
        obtain rfl := Except.ok.inj h1
        refine ⟨rfl, ?_, ?_, Or.inr ⟨?_, ?_⟩⟩
        · intro r hr x hx
          have hes2 : ∀ r ∈ es, ∀ x ∈ r, 0 ≤ x.1 := by
            intro r hr x hx
            rcases hmem r hr with rfl | hr
            · cases hx
            · exact b r hr x hx
          rcases List.mem_or_eq_of_mem_set hr with hr | rfl
          · exact hes2 r hr x hx
          · simp only [List.mem_cons] at hx
            rcases hx with rfl | hx
            · exact hj
            · exact hes2 _ (List.getElem_mem hlt) x hx
        · intro x hx
          simp only [List.mem_append, List.mem_singleton] at hx
          simp only [List.length_set]
          rcases hx with hx | rfl
          · have := c x hx
            exact ⟨this.1, this.2.1, by omega⟩
          · exact ⟨hi, hj, by omega⟩
        · by_cases hlast : e.1.toNat + 1 = es.length
          · refine ⟨(e.2.1, e.2.2) :: es[e.1.toNat], ?_, by simp⟩
            have hl1 : es.length - 1 = e.1.toNat := by omega
            rw [List.getLast?_eq_getElem?, List.length_set, hl1]
            simp [hlt]
          · have hlt' : e.1 < (L0.entries.length : Int) := by omega
            have hesE := hsame hlt'
            subst hesE
            rcases d with ⟨_, d⟩ | ⟨⟨r, d, d'⟩, _⟩
            · rw [d] at hlt; simp at hlt
            · refine ⟨r, ?_, d'⟩
              rw [List.getLast?_eq_getElem?] at d ⊢
              rw [List.length_set, List.getElem?_set_ne (by omega)]
              exact d
        · simp only [List.length_set]
          by_cases hg : e.1 < (L0.entries.length : Int)
          · have hesE := hsame hg
            subst hesE
            rcases d with ⟨_, d⟩ | ⟨_, ⟨x, hx, hx'⟩⟩
            · rw [d] at hlt; simp at hlt
            · exact ⟨x, by simp [hx], hx'⟩
          · exact ⟨e, by simp, by omega⟩
      · rw [cassert_true hi, cassert_false hj] at h1; cases h1
    · rw [cassert_false hi] at h1; cases h1

/-- **C25.**  For *every* unsized matrix holding entries, `ToSparse()` returns a matrix that is not well-formed: it
has one row more than the rows stored and its last row pointer is 0 instead of the number of entries. -/
theorem C25_toSparse_false [Add α] (sort : List (Int × α) → List (Int × α)) (hsort : IsRowSort sort) (L : Lil α)
    (hL : L.Unsized) :
    ∃ A L', L.toSparse sort = .ok (A, L') ∧ ¬ A.WF ∧ A.rows = (L.entries.length : Int) + 1 ∧
      rd A.indptr A.rows = .ok 0 ∧ A.data ≠ [] := by
  obtain ⟨f1, f2, f3⟩ := Lil.findSize_unsized hL.unsized hL.cols_nonneg
  obtain ⟨lr, hlr, hne⟩ := hL.last
  have hmem : lr ∈ L.entries := List.mem_of_getLast? hlr
  have hpos : L.entries.length ≠ 0 := by intro h; rw [List.length_eq_zero_iff.mp h] at hmem; cases hmem
  have hok : ∀ r ∈ lilRows sort L.entries, ∀ e ∈ r, 0 ≤ e.1 ∧ e.1 < L.findSize.2 := by
    intro r hr
    obtain ⟨r0, h0, rfl⟩ := List.mem_map.mp hr
    exact foldl_mergeIn_cols _ _ (fun c => 0 ≤ c ∧ c < L.findSize.2) (by simp)
      (fun e he => f3 r0 h0 e ((hsort r0).1.mem_iff.mp he))
  have hdata : (lilRows sort L.entries).flatten.map Prod.snd ≠ [] := by
    intro h
    rw [List.map_eq_nil_iff, List.flatten_eq_nil_iff] at h
    have := h _ (List.mem_map.mpr ⟨lr, hmem, rfl⟩)
    obtain ⟨x, xs, hx⟩ : ∃ x xs, sort lr = x :: xs := by
      cases hsl : sort lr with
      | nil => exact absurd (List.Perm.eq_nil (hsl ▸ (hsort lr).1.symm)) hne
      | cons x xs => exact ⟨x, xs, rfl⟩
    rw [hx, List.foldl_cons, mergeIn_nil] at this
    exact foldl_mergeIn_ne_nil xs [x] (by simp) this
  have hpad : padTo (L.entries.length + 2) (0 : Int) (ptrs (lilRows sort L.entries)) = ptrs (lilRows sort L.entries) ++ [0] := by
    unfold padTo
    congr 1
    simp [lilRows]
  have hrun : L.toSparse sort = .ok (⟨(L.entries.length : Int) + 1, L.findSize.2, ptrs (lilRows sort L.entries) ++ [0],
      (lilRows sort L.entries).flatten.map Prod.fst, (lilRows sort L.entries).flatten.map Prod.snd⟩,
      { L with entries := L.entries.map sort }) := by
    unfold Lil.toSparse
    simp only
    rw [if_neg hpos, f1, show (L.entries.length : Int) + 1 + 1 = ((L.entries.length + 2 : Nat) : Int) by omega,
      mkVec_nat, ok_bind]
    have hw : wr (List.replicate (L.entries.length + 2) (0 : Int)) 0 0 = .ok (List.replicate (L.entries.length + 2) 0) := by
      rw [show (0 : Int) = ((0 : Nat) : Int) from rfl, wr_nat (by simp)]
      simp [List.replicate_succ]
    rw [hw, ok_bind, lil_loop _ (L.entries.length + 2) (by simp), ok_bind]
    have e1 : ((L.entries.map sort).map (fun r => r.foldl mergeIn [])) = lilRows sort L.entries := by
      simp [lilRows]
    rw [e1, hpad]
    simp only
    have hc : ∀ c ∈ (lilRows sort L.entries).flatten.map Prod.fst, 0 ≤ c ∧ c < L.findSize.2 :=
      (Csr.wf_ofRows f2 hok).cols_ok
    have h0 : rd (ptrs (lilRows sort L.entries) ++ [0]) 0 = .ok 0 := by
      have := rd_ptrs (lilRows sort L.entries) 0 (by omega)
      rw [rd_nat (by simp)] at this
      have h1 := rd_nat (v := ptrs (lilRows sort L.entries) ++ [0]) (n := 0) (by simp)
      rw [List.getElem_append_left (by simp), this] at h1
      simpa using h1
    unfold Csr.ofArrays
    rw [cassert_true (by omega), cassert_true f2, cassert_true (by simp [lilRows]),
      cassert_true (by simp only [List.length_map]), h0]
    simp only [ok_bind, cassert_true]
    split
    · rw [cassert_true (fun c h => (hc c h).2), cassert_true (fun c h => (hc c h).1)]; rfl
    · rfl
  refine ⟨_, _, hrun, ?_, rfl, ?_, hdata⟩
  · intro hwf
    have := hwf.indptr_last
    simp only [List.getLast?_append, List.getLast?_singleton] at this
    apply hdata
    rw [← List.length_eq_zero_iff]
    simp only [Option.or_some, Option.some_or, Option.some.injEq] at this
    omega
  · simp only
    rw [show (L.entries.length : Int) + 1 = ((L.entries.length + 1 : Nat) : Int) by omega, rd_nat (by simp [lilRows])]
    rw [List.getElem_append_right (by simp [lilRows])]
    simp

/-- **C25 (partial).**  What does hold for an unsized matrix: the column count is least, and `ToDense()` is right
apart from the extra zero row.  Missing: the row count and `ToSparse()` (`C25_rows_false`,
`C25_toSparse_false`). -/
theorem C25_toDense_partial [AddCommMonoid R] (L : Lil R) (hL : L.Unsized) (out : Dense R) :
    ∃ D, L.toDenseInto out = .ok D ∧
      D.Is ((L.entries.length : Int) + 1) L.findSize.2 (fun i j => L.coef i j) ∧
      (∀ r ∈ L.entries, ∀ e ∈ r, e.1 < L.findSize.2) ∧
      ∃ r ∈ L.entries, ∃ e ∈ r, L.findSize.2 = e.1 + 1 := by
  obtain ⟨f1, f2, f3⟩ := Lil.findSize_unsized hL.unsized hL.cols_nonneg
  obtain ⟨n, hn⟩ : ∃ n : Nat, L.findSize.2 = n := ⟨L.findSize.2.toNat, by omega⟩
  refine ⟨Dense.ofFn (L.entries.length + 1) n (fun i j => L.coef i j), ?_, ?_, fun r hr e he => (f3 r hr e he).2, ?_⟩
  · unfold Lil.toDenseInto
    rw [f1, hn, show (L.entries.length : Int) + 1 = ((L.entries.length + 1 : Nat) : Int) by omega]
    obtain ⟨f, hf⟩ := Dense.setSize_ofFn out (L.entries.length + 1) n
    rw [hf, ok_bind, Dense.fill_ofFn]
    rw [hn] at f3
    exact lil_dense_loop L _ n (by omega) f3
  · rw [hn, show (L.entries.length : Int) + 1 = ((L.entries.length + 1 : Nat) : Int) by omega]
    exact Dense.is_ofFn _ _ _
  · have hM := foldl_max_col L.entries 0
    simp only at hM
    have hfs : L.findSize.2 = L.entries.foldl (fun m row => row.foldl (fun (m : Int) (e : Int × R) => max m e.1) m) 0 + 1 := by
      unfold Lil.findSize; rw [hL.unsized]; rfl
    rcases hM.2.2 with h | ⟨r, hr, e, he, h⟩
    · obtain ⟨lr, hlr, hne⟩ := hL.last
      obtain ⟨e, he⟩ := List.exists_mem_of_ne_nil _ hne
      have hm := List.mem_of_getLast? hlr
      have h1 := f3 lr hm e he
      exact ⟨lr, hm, e, he, by omega⟩
    · exact ⟨r, hr, e, he, by rw [hfs, h]⟩

/-- C25: one add at (1, 2) gives a malformed 3-row matrix. -/
example : ∃ L : Lil Int, Lil.new.addAll [(1, 2, 5)] = .ok L ∧
    L.toSparse id = .ok (⟨3, 3, [0, 0, 1, 0], [2], [5]⟩, L) :=
  ⟨⟨0, 0, false, [[], [(2, 5)]]⟩, by decide, by decide⟩

/-- C25: the hypotheses are met. -/
example : (⟨0, 0, false, [[], [(2, 5)]]⟩ : Lil Int).Unsized :=
  ⟨rfl, by decide, [(2, 5)], by decide, by decide⟩

/-! ## C26 -/

/-- **C26.**  The claim is false: `SetSize(3, 3)` on a new matrix, then `Add(0, 0, v)`, accesses a row that does not
exist. -/
theorem C26_setSize_false : ∀ v : α, ((Lil.new : Lil α).setSize 3 3).add 0 0 v = .error .outOfBounds := fun _ => rfl

/-- **C26 (partial).**  After `SetSize`, an in-range `Add` works exactly when the row storage already has that row.
Missing: safety in general (`C26_setSize_false`). -/
theorem C26_add_partial (L : Lil α) (r c i j : Int) (v : α) (hi : 0 ≤ i) (hi' : i < r) (hj : 0 ≤ j) (hj' : j < c) :
    (i < (L.entries.length : Int) → ∃ L', (L.setSize r c).add i j v = .ok L') ∧
    ((L.entries.length : Int) ≤ i → (L.setSize r c).add i j v = .error .outOfBounds) := by
  unfold Lil.add Lil.setSize
  rw [cassert_true hi, cassert_true hj]
  simp only [ok_bind, if_true]
  rw [cassert_true hi', cassert_true hj']
  simp only [ok_bind]
  refine ⟨fun h => ?_, fun h => ?_⟩
  · rw [rd_int hi h, ok_bind, wr_int hi h]; exact ⟨_, rfl⟩
  · rw [rd_oob (Or.inr h)]; rfl

/-- **C26 (partial).**  If the storage has exactly `r` rows with columns below `c`, the matrix is well-formed after
`SetSize(r, c)`, so C24 applies to it. -/
theorem C26_wf_partial (L : Lil α) (r c : Int) (hr : (L.entries.length : Int) = r) (hc : 0 ≤ c)
    (hcols : ∀ row ∈ L.entries, ∀ e ∈ row, 0 ≤ e.1 ∧ e.1 < c) : (L.setSize r c).WF :=
  ⟨rfl, hr, hc, hcols⟩

/-- C26: an unsized matrix with two rows, then `SetSize(2, 4)`. -/
example : ((⟨0, 0, false, [[], [(2, 5)]]⟩ : Lil Int).setSize 2 4).WF := by decide

end Linalg
