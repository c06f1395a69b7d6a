import Verif.Proof.SpGemm

/-!
# Sparse-sparse product (C04)
-/

namespace Linalg
open Cpp

variable {R : Type}

theorem rowCoef_prodsRow [NonUnitalNonAssocSemiring R] (p : Int) {rb : List (List (Int × R))} {r : List (Int × R)}
    (h : ∀ e ∈ r, 0 ≤ e.1 ∧ e.1 < (rb.length : Int)) (j : Int) :
    rowCoef (prodsRow rb r) j
      = ∑ k ∈ Finset.Ico 0 (rb.length : Int), rowCoef r k * (Csr.ofRows p rb).coef k j := by
  rw [← sum_row_eq h (fun k => (Csr.ofRows p rb).coef k j)]
  unfold prodsRow
  induction r with
  | nil => rfl
  | cons a r ih =>
    rw [List.flatMap_cons, rowCoef_append, ih (fun e he => h e (by simp [he])), List.map_cons, List.sum_cons]
    congr 1
    rw [coef_ofRows_getD p rb (h a (by simp)).1]
    generalize rb.getD a.1.toNat [] = b
    induction b with
    | nil => simp
    | cons e b ih2 =>
      rw [List.map_cons, rowCoef_cons, rowCoef_cons, ih2, mul_add]
      simp only [mul_ite, mul_zero]

/-- **C04.**  For well-formed `A` (m x n) and `B` (n x p), the product returns normally, for any contents and
length of the caller-supplied marker.  The result is a well-formed m x p matrix, no row stores a column twice,
and its coefficients are those of the matrix product. -/
theorem C04_mult_marker [NonUnitalNonAssocSemiring R] (A B : Csr R) (hA : A.WF) (hB : B.WF)
    (hdim : B.rows = A.cols) (marker : List Int) :
    ∃ P, A.multSparseMarker B marker = .ok P ∧ P.WF ∧ P.NoDup ∧ P.rows = A.rows ∧ P.cols = B.cols ∧
      ∀ i j, 0 ≤ i → i < A.rows → P.coef i j = ∑ k ∈ Finset.Ico 0 A.cols, A.coef i k * B.coef k j := by
  obtain ⟨n, ra, hn, hra, rfl⟩ := hA.exists_rows
  obtain ⟨p, rb, hp, hrb, rfl⟩ := hB.exists_rows
  have hnb : n = rb.length := by simpa [Csr.ofRows] using hdim.symm
  have hok : ∀ r ∈ prodRows ra rb, ∀ e ∈ r, 0 ≤ e.1 ∧ e.1 < p := by
    intro r hr
    obtain ⟨x, _, rfl⟩ := List.mem_map.mp hr
    exact foldl_accum_ok (prodsRow_ok hrb x)
  have hwf := Csr.wf_ofRows hp hok
  refine ⟨_, multSparseMarker_ofRows hnb hp hra hrb marker, hwf, ?_, by simp [Csr.ofRows, prodRows], rfl, ?_⟩
  · rw [hwf.noDup_iff]
    intro k hk
    have hk' : k < (prodRows ra rb).length := by simpa [Csr.ofRows] using hk
    rw [Csr.row_ofRows p _ k hk']
    simp only [prodRows, List.getElem_map]
    exact foldl_accum_nodup _ _ (by simp)
  · intro i j h0 h1
    obtain ⟨k, rfl⟩ : ∃ k : Nat, i = k := ⟨i.toNat, by omega⟩
    have hk : k < ra.length := by simpa [Csr.ofRows] using h1
    rw [coef_ofRows p _ k (by simpa [prodRows] using hk)]
    simp only [prodRows, List.getElem_map]
    subst hnb
    rw [rowCoef_foldl_accum, rowCoef_nil, zero_add,
      rowCoef_prodsRow p (hra _ (List.getElem_mem hk))]
    apply Finset.sum_congr rfl
    intro l _
    rw [coef_ofRows _ ra k hk]

/-- **C04.**  The marker has no influence: any two markers give the same product, which is also the product
computed with the internally allocated marker. -/
theorem C04_marker_irrelevant [NonUnitalNonAssocSemiring R] (A B : Csr R) (hA : A.WF) (hB : B.WF)
    (hdim : B.rows = A.cols) (marker : List Int) :
    A.multSparseMarker B marker = A.multSparse B := by
  obtain ⟨n, ra, hn, hra, rfl⟩ := hA.exists_rows
  obtain ⟨p, rb, hp, hrb, rfl⟩ := hB.exists_rows
  obtain ⟨p, rfl⟩ : ∃ q : Nat, p = q := ⟨p.toNat, by omega⟩
  have hnb : n = rb.length := by simpa [Csr.ofRows] using hdim.symm
  unfold Csr.multSparse
  have e : mkVec (Csr.ofRows (p : Int) rb).cols (0 : Int) = _ := mkVec_nat p 0
  rw [e, ok_bind, multSparseMarker_ofRows hnb hp hra hrb, multSparseMarker_ofRows hnb hp hra hrb]

/-- **C04.**  The product without a marker argument. -/
theorem C04_mult [NonUnitalNonAssocSemiring R] (A B : Csr R) (hA : A.WF) (hB : B.WF)
    (hdim : B.rows = A.cols) :
    ∃ P, A.multSparse B = .ok P ∧ P.WF ∧ P.NoDup ∧ P.rows = A.rows ∧ P.cols = B.cols ∧
      ∀ i j, 0 ≤ i → i < A.rows → P.coef i j = ∑ k ∈ Finset.Ico 0 A.cols, A.coef i k * B.coef k j := by
  rw [← C04_marker_irrelevant A B hA hB hdim []]
  exact C04_mult_marker A B hA hB hdim []

/-- **C04.**  Stored positions are structural: row `i` of the product stores column `j` exactly when some stored
`A(i,k)` meets a stored `B(k,j)`, whether or not the values cancel. -/
theorem C04_pattern [NonUnitalNonAssocSemiring R] (A B : Csr R) (hA : A.WF) (hB : B.WF)
    (hdim : B.rows = A.cols) (P : Csr R) (hP : A.multSparse B = .ok P) (i j : Int) (h0 : 0 ≤ i) (h1 : i < A.rows) :
    j ∈ (P.row i).map Prod.fst ↔ ∃ a ∈ A.row i, ∃ b ∈ B.row a.1, b.1 = j := by
  rw [← C04_marker_irrelevant A B hA hB hdim []] at hP
  obtain ⟨n, ra, hn, hra, rfl⟩ := hA.exists_rows
  obtain ⟨p, rb, hp, hrb, rfl⟩ := hB.exists_rows
  have hnb : n = rb.length := by simpa [Csr.ofRows] using hdim.symm
  rw [multSparseMarker_ofRows hnb hp hra hrb] at hP
  obtain rfl := Except.ok.inj hP
  obtain ⟨k, rfl⟩ : ∃ k : Nat, i = k := ⟨i.toNat, by omega⟩
  have hk : k < ra.length := by simpa [Csr.ofRows] using h1
  rw [Csr.row_ofRows p _ k (by simpa [prodRows] using hk), Csr.row_ofRows n ra k hk]
  simp only [prodRows, List.getElem_map]
  rw [foldl_accum_mem]
  simp only [List.map_nil, List.not_mem_nil, false_or, List.mem_map, prodsRow, List.mem_flatMap]
  constructor
  · rintro ⟨e, ⟨a, ha, b, hb, rfl⟩, rfl⟩
    refine ⟨a, ha, b, ?_, rfl⟩
    rw [row_ofRows_getD p rb (hra _ (List.getElem_mem hk) a ha).1]
    exact hb
  · rintro ⟨a, ha, b, hb, rfl⟩
    rw [row_ofRows_getD p rb (hra _ (List.getElem_mem hk) a ha).1] at hb
    exact ⟨_, ⟨a, ha, b, hb, rfl⟩, rfl⟩

/-- **C04.**  Mismatched inner dimensions are rejected. -/
theorem C04_rejects [NonUnitalNonAssocSemiring R] (A B : Csr R) (hdim : B.rows ≠ A.cols) (marker : List Int) :
    A.multSparseMarker B marker = .error .assertFail := by
  unfold Csr.multSparseMarker
  rw [cassert_false hdim]
  rfl

/-- **C04.**  Multiplying by the product is multiplying twice. -/
theorem C04_assoc_vec [NonUnitalSemiring R] (A B P : Csr R) (hA : A.WF) (hB : B.WF)
    (hdim : B.rows = A.cols) (hP : A.multSparse B = .ok P) (x y : List R)
    (hy : (y.length : Int) = B.rows) (hBx : ∀ k, 0 ≤ k → k < B.rows → vecAt y k = B.mulVec x k)
    (i : Int) (h0 : 0 ≤ i) (h1 : i < A.rows) :
    P.mulVec x i = A.mulVec y i := by
  obtain ⟨P', e, -, -, -, hc, hcoef⟩ := C04_mult A B hA hB hdim
  rw [e] at hP
  obtain rfl := Except.ok.inj hP
  unfold Csr.mulVec
  rw [hc]
  have : ∀ k ∈ Finset.Ico 0 A.cols, A.coef i k * vecAt y k
      = ∑ j ∈ Finset.Ico 0 B.cols, A.coef i k * B.coef k j * vecAt x j := by
    intro k hk
    have hk := Finset.mem_Ico.mp hk
    rw [hBx k hk.1 (by omega), Csr.mulVec, Finset.mul_sum]
    exact Finset.sum_congr rfl (fun j _ => (mul_assoc _ _ _).symm)
  rw [Finset.sum_congr rfl this, Finset.sum_comm]
  apply Finset.sum_congr rfl
  intro j _
  rw [hcoef i j h0 h1, Finset.sum_mul]

/-- The hypotheses of C04 are met by a product with a cancellation, duplicated input columns and a used marker. -/
example : ∃ A B : Csr Int, A.WF ∧ B.WF ∧ B.rows = A.cols ∧ ¬ A.NoDup ∧
    A.multSparseMarker B [9, 9, 9, 9] = .ok ⟨2, 2, [0, 2, 3], [0, 1, 0], [0, 5, 4]⟩ :=
  ⟨⟨2, 2, [0, 3, 4], [0, 1, 0, 1], [1, 1, 0, 2]⟩,
   ⟨2, 2, [0, 2, 3], [0, 1, 0], [-2, 5, 2]⟩, by decide, by decide, by decide,
   fun h => absurd (h 0) (by decide), by decide⟩

end Linalg
