import Verif.Proof.Triples

/-!
# Sparse matrix times vector (C01, C02)
-/

namespace Linalg
open Cpp

variable {R : Type}

/-- **C01.**  On a well-formed matrix and vectors of the right lengths, `Mult(x, y)` returns normally (no
out-of-range access, no failed assertion) and leaves `y[i] = Σ_j A(i,j) * x[j]` for every row `i`, whatever
`y` held before. -/
theorem C01_mult [NonUnitalNonAssocSemiring R] (A : Csr R) (hA : A.WF) (x y : List R)
    (hx : (x.length : Int) = A.cols) (hy : (y.length : Int) = A.rows) :
    ∃ y', A.mult x y = .ok y' ∧ (y'.length : Int) = A.rows ∧
      ∀ i, 0 ≤ i → i < A.rows → rd y' i = .ok (A.mulVec x i) := by
  obtain ⟨n, rs, hn, hrs, rfl⟩ := hA.exists_rows
  have hy' : y.length = rs.length := by simpa [Csr.ofRows] using hy
  refine ⟨_, mult_ofRows hrs x y hx hy', by simp [Csr.ofRows], ?_⟩
  intro i h0 h1
  have h1' : i < rs.length := h1
  rw [rd_eq_ok]
  refine ⟨h0, ?_⟩
  rw [List.getElem?_map, List.getElem?_range (by omega)]
  simp only [Option.map_some, Csr.mulVec]
  congr 1
  apply Finset.sum_congr rfl
  intro j _
  rw [coef_ofRows_getD n rs h0]

/-- **C01.**  The result does not depend on the previous contents of the output vector. -/
theorem C01_mult_output_irrelevant [NonUnitalNonAssocSemiring R] (A : Csr R) (hA : A.WF)
    (x y z : List R) (hx : (x.length : Int) = A.cols) (hy : (y.length : Int) = A.rows)
    (hz : (z.length : Int) = A.rows) : A.mult x y = A.mult x z := by
  obtain ⟨n, rs, hn, hrs, rfl⟩ := hA.exists_rows
  rw [mult_ofRows hrs x y hx (by simpa [Csr.ofRows] using hy),
    mult_ofRows hrs x z hx (by simpa [Csr.ofRows] using hz)]

/-- **C01.**  Vectors of the wrong length are rejected by an assertion, for any matrix. -/
theorem C01_mult_rejects [NonUnitalNonAssocSemiring R] (A : Csr R) (x y : List R)
    (h : (x.length : Int) ≠ A.cols ∨ (y.length : Int) ≠ A.rows) :
    A.mult x y = .error .assertFail := by
  unfold Csr.mult
  by_cases hx : (x.length : Int) = A.cols
  · rw [cassert_true hx, cassert_false (h.resolve_left (not_not_intro hx))]; rfl
  · rw [cassert_false hx]; rfl

/-- **C01.**  The form returning a new vector (`Mult(x)`, `A * x`). -/
theorem C01_multVec [NonUnitalNonAssocSemiring R] (A : Csr R) (hA : A.WF) (x : List R)
    (hx : (x.length : Int) = A.cols) :
    ∃ y', A.multVec x = .ok y' ∧ (y'.length : Int) = A.rows ∧
      ∀ i, 0 ≤ i → i < A.rows → rd y' i = .ok (A.mulVec x i) := by
  have hr := hA.rows_nonneg
  unfold Csr.multVec
  rw [mkVec_int hr]
  exact C01_mult A hA x _ hx (by simp; omega)

/-- **C02.**  On a well-formed matrix and vectors of the right lengths, `MultAT(x, y)` returns normally and
leaves `y[j] = Σ_i A(i,j) * x[i]`, whatever `y` held before. -/
theorem C02_multAT [NonUnitalNonAssocSemiring R] (A : Csr R) (hA : A.WF) (x y : List R)
    (hx : (x.length : Int) = A.rows) (hy : (y.length : Int) = A.cols) :
    ∃ y', A.multAT x y = .ok y' ∧ (y'.length : Int) = A.cols ∧
      ∀ j, 0 ≤ j → j < A.cols → rd y' j = .ok (A.tMulVec x j) := by
  obtain ⟨n, rs, hn, hrs, rfl⟩ := hA.exists_rows
  exact multAT_ofRows hrs x y (by simpa [Csr.ofRows] using hx) hy

/-- **C02.**  Vectors of the wrong length are rejected by an assertion, for any matrix. -/
theorem C02_multAT_rejects [NonUnitalNonAssocSemiring R] (A : Csr R) (x y : List R)
    (h : (x.length : Int) ≠ A.rows ∨ (y.length : Int) ≠ A.cols) :
    A.multAT x y = .error .assertFail := by
  unfold Csr.multAT
  by_cases hx : (x.length : Int) = A.rows
  · rw [cassert_true hx, cassert_false (h.resolve_left (not_not_intro hx))]; rfl
  · rw [cassert_false hx]; rfl

/-- Inner product of two vectors of length `n`, mathematically. -/
def dotN [NonUnitalNonAssocSemiring R] (n : Int) (x y : List R) : R :=
  ∑ i ∈ Finset.Ico 0 n, vecAt x i * vecAt y i

/-- **C02.**  `MultAT` is the adjoint of `Mult`: if `Mult` maps `u` to `au` and `MultAT` maps `v` to `atv`,
then `⟨A u, v⟩ = ⟨u, Aᵀ v⟩`. -/
theorem C02_adjoint [CommSemiring R] (A : Csr R) (hA : A.WF) (u v y z au atv : List R)
    (h1 : A.mult u y = .ok au) (h2 : A.multAT v z = .ok atv) :
    dotN A.rows au v = dotN A.cols u atv := by
  have hs1 : (u.length : Int) = A.cols ∧ (y.length : Int) = A.rows := by
    by_contra hc
    have := C01_mult_rejects A u y (by tauto)
    rw [this] at h1; cases h1
  have hs2 : (v.length : Int) = A.rows ∧ (z.length : Int) = A.cols := by
    by_contra hc
    have := C02_multAT_rejects A v z (by tauto)
    rw [this] at h2; cases h2
  obtain ⟨au', e1, l1, f1⟩ := C01_mult A hA u y hs1.1 hs1.2
  obtain ⟨atv', e2, l2, f2⟩ := C02_multAT A hA v z hs2.1 hs2.2
  rw [h1] at e1; rw [h2] at e2
  cases e1; cases e2
  have key1 : dotN A.rows au v
      = ∑ i ∈ Finset.Ico 0 A.rows, ∑ j ∈ Finset.Ico 0 A.cols, A.coef i j * vecAt u j * vecAt v i := by
    apply Finset.sum_congr rfl
    intro i hi
    simp only [Finset.mem_Ico] at hi
    have := f1 i hi.1 hi.2
    rw [rd_vecAt au hi.1 (by omega)] at this
    rw [Except.ok.inj this, Csr.mulVec, Finset.sum_mul]
  have key2 : dotN A.cols u atv
      = ∑ j ∈ Finset.Ico 0 A.cols, ∑ i ∈ Finset.Ico 0 A.rows, A.coef i j * vecAt u j * vecAt v i := by
    apply Finset.sum_congr rfl
    intro j hj
    simp only [Finset.mem_Ico] at hj
    have := f2 j hj.1 hj.2
    rw [rd_vecAt atv hj.1 (by omega)] at this
    rw [Except.ok.inj this, Csr.tMulVec, Finset.mul_sum]
    apply Finset.sum_congr rfl
    intro i _
    ring
  rw [key1, key2, Finset.sum_comm]

/-! ## The hypotheses are satisfiable, and the model computes -/

/-- A 3 x 2 matrix with an empty row, unsorted columns and a duplicated coordinate. -/
def exA : Csr Int := ⟨3, 2, [0, 3, 3, 4], [1, 0, 1, 1], [5, 7, 2, -1]⟩

example : exA.WF := by decide
example : exA.mult [10, 100] [9, 9, 9] = .ok [770, 0, -100] := by decide
example : exA.mulVec [10, 100] 0 = 770 := by decide
example : exA.multAT [1, 2, 3] [9, 9] = .ok [7, 4] := by decide
example : exA.mult [10] [9, 9, 9] = .error .assertFail := by decide

end Linalg
