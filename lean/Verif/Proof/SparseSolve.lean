import Verif.Spec.SparseSolve
import Verif.Props.SparseSort
import Mathlib.LinearAlgebra.Matrix.NonsingularInverse

/-!
# Lemmas on the direct sparse solver
-/

namespace Linalg
open Cpp

variable {R S N : Type}

namespace SparseSolver

theorem getD_of_rd {β : Type} {l : List β} {k : Nat} {x d : β} (h : rd l (k : Int) = .ok x) : l.getD k d = x := by
  by_cases hk : k < l.length
  · rw [rd_nat hk] at h
    cases h
    simp [List.getD_eq_getElem?_getD, hk]
  · rw [rd_oob (by right; omega)] at h
    cases h

/-- The stored row, read off the arrays. -/
theorem row_arrays {A : Csr R} (hA : A.WF) {j : Nat} (hj : (j : Int) < A.rows) :
    A.row j = ((A.indices.zip A.data).drop (A.indptr.getD j 0).toNat).take (A.indptr.getD (j + 1) 0 - A.indptr.getD j 0).toNat := by
  have hl := hA.indptr_len
  have h1 : j < A.indptr.length := by omega
  have h2 : j + 1 < A.indptr.length := by omega
  unfold Csr.row
  rw [show ((j : Int) + 1) = ((j + 1 : Nat) : Int) by push_cast; rfl, rd_nat h1, rd_nat h2]
  simp [List.getD_eq_getElem?_getD, h1, h2]

theorem cols_arrays {A : Csr R} (hA : A.WF) {j : Nat} (hj : (j : Int) < A.rows) :
    (A.indices.drop (A.indptr.getD j 0).toNat).take (A.indptr.getD (j + 1) 0 - A.indptr.getD j 0).toNat = (A.row j).map Prod.fst := by
  rw [row_arrays hA hj, List.map_take, List.map_drop]
  congr 2
  rw [List.map_fst_zip]
  rw [hA.indices_len]

/-- Rows read as columns are the transpose. -/
theorem colMat_eq [CommRing R] {A : Csr R} (hA : A.WF) {n : Nat} (hn : A.rows = n) :
    colMat n A.indptr A.indices A.data = (A.mat n).transpose := by
  funext i j
  rw [Matrix.transpose_apply]
  unfold colMat Csr.mat Csr.coef
  rw [row_arrays hA (by rw [hn]; exact_mod_cast j.2)]
  congr 1
  generalize (((A.indices.zip A.data).drop _).take _) = l
  induction l with
  | nil => rfl
  | cons e l ih =>
    by_cases h : e.1 = (i : Int)
    · simp [h, ih]
    · simp [h, ih]

theorem colOk_iff {A : Csr R} (hA : A.WF) {n : Nat} (hn : A.rows = n) (hc : A.cols = n) (h0 : 0 < n) :
    ColOk n A.indptr A.indices ↔ ∀ j < n, (A.row (j : Int)).Pairwise (fun a b => a.1 < b.1) := by
  unfold ColOk
  have hl := hA.indptr_len
  constructor
  · rintro ⟨-, -, h⟩ j hj
    have := (h j hj).2.2
    rw [cols_arrays hA (by omega), List.pairwise_map] at this
    exact this
  · intro h
    refine ⟨h0, ?_, ?_⟩
    · have := hA.indptr_first
      rw [List.head?_eq_getElem?] at this
      rw [List.getD_eq_getElem?_getD, this]; rfl
    · intro j hj
      rw [cols_arrays hA (by omega)]
      refine ⟨?_, ?_, ?_⟩
      · have h1 : j < A.indptr.length := by omega
        have h2 : j + 1 < A.indptr.length := by omega
        have := List.pairwise_iff_getElem.mp hA.indptr_mono j (j + 1) h1 h2 (by omega)
        simpa [List.getD_eq_getElem?_getD, h1, h2] using this
      · intro r hr
        obtain ⟨e, he, rfl⟩ := List.mem_map.mp hr
        have := Csr.mem_row_ok hA he
        omega
      · rw [List.pairwise_map]
        exact h j hj

theorem last_indptr {A : Csr R} (hA : A.WF) {n : Nat} (hn : A.rows = n) : A.indptr.getD n 0 = A.data.length := by
  have hl := hA.indptr_len
  have := hA.indptr_last
  rw [List.getLast?_eq_getElem?] at this
  rw [List.getD_eq_getElem?_getD]
  have e : A.indptr.length - 1 = n := by omega
  rw [e] at this
  rw [this]; rfl

theorem arrays_ok {A : Csr R} (hA : A.WF) (hsq : A.rows = A.cols) : arrays A = .ok () := by
  obtain ⟨n, hn⟩ : ∃ n : Nat, A.rows = n := ⟨A.rows.toNat, by have := hA.rows_nonneg; omega⟩
  have hl := hA.indptr_len
  have hlast := last_indptr hA hn
  have hlt : n < A.indptr.length := by omega
  have hr : rd A.indptr A.cols = .ok (A.data.length : Int) := by
    rw [← hsq, hn, rd_nat hlt]
    simp only [List.getD_eq_getElem?_getD, List.getElem?_eq_getElem hlt, Option.getD_some] at hlast
    rw [hlast]
  unfold arrays need
  rw [if_pos (by omega), ok_bind, hr, ok_bind, if_pos (by rw [hA.indices_len]), ok_bind, if_pos (le_refl _)]

/-- What `Init` stores in `numeric_`. -/
def fac (U : Umfpack R S N) (B : Csr R) : N :=
  (U.numeric B.indptr B.indices B.data (U.symbolic B.rows B.cols B.indptr B.indices B.data).2).2

/-- A matrix that UMFPACK factors. -/
structure Ready [CommRing R] (B : Csr R) (n : Nat) : Prop where
  wf : B.WF
  rows : B.rows = n
  cols : B.cols = n
  nz : 0 < B.nnz
  asc : ∀ j < n, (B.row (j : Int)).Pairwise (fun a b => a.1 < b.1)
  unit : IsUnit (B.mat n).det

theorem pos_of_nnz {B : Csr R} (hB : B.WF) {n : Nat} (hr : B.rows = n) (hz : 0 < B.nnz) : 0 < n := by
  rcases Nat.eq_zero_or_pos n with h | h
  · exfalso
    have h1 := last_indptr hB hr
    subst h
    have := hB.indptr_first
    rw [List.head?_eq_getElem?] at this
    rw [List.getD_eq_getElem?_getD, this] at h1
    unfold Csr.nnz at hz
    simp at h1
    omega
  · exact h

section
variable [CommRing R] {U : Umfpack R S N}

theorem init_eq (hU : U.Exact) {B : Csr R} (hB : B.WF) {n : Nat} (hr : B.rows = n) (hc : B.cols = n) (hz : 0 < B.nnz) :
    (Ready B n → init U B = .ok (fac U B)) ∧ (¬ Ready B n → init U B = .error .assertFail) := by
  have h0 := pos_of_nnz hB hr hz
  have hl := hB.indptr_len
  have hi := hB.indices_len
  have hlast := last_indptr hB hr
  have hsym := hU.symbolic n B.indptr B.indices B.data (by omega) (by rw [hlast, hi]) (by rw [hi])
  have hnum := hU.numeric n B.indptr B.indices B.data (by omega) (by rw [hlast, hi]) (by rw [hi])
  rw [colOk_iff hB hr hc h0] at hsym hnum
  rw [colMat_eq hB hr, Matrix.det_transpose] at hnum
  unfold init
  rw [cassert_true (by omega), ok_bind, arrays_ok hB (by omega), ok_bind]
  simp only [fac, hr, hc]
  constructor
  · intro h
    rw [cassert_true (hsym.mpr h.asc), ok_bind, cassert_true ((hnum h.asc).mpr h.unit), ok_bind]
  · intro h
    by_cases ha : ∀ j < n, (B.row (j : Int)).Pairwise (fun a b => a.1 < b.1)
    · rw [cassert_true (hsym.mpr ha), ok_bind, cassert_false]
      · rfl
      · intro hh
        exact h ⟨hB, hr, hc, hz, ha, (hnum ha).mp hh⟩
    · rw [cassert_false (fun hh => ha (hsym.mp hh))]
      rfl

/-- Sorting keeps the matrix, and makes it ready exactly if no entry is stored twice and the matrix is invertible. -/
theorem ready_sorted {srt : Csr.Sorter} (hs : IsSort srt) {A B : Csr R} (hA : A.WF) {n : Nat} (hr : A.rows = n) (hc : A.cols = n)
    (hz : 0 < A.nnz) (h : A.sortIndices srt = .ok B) :
    B.WF ∧ B.rows = n ∧ B.cols = n ∧ 0 < B.nnz ∧ B.mat n = A.mat n ∧ (Ready B n ↔ A.NoDup ∧ IsUnit (A.mat n).det) := by
  obtain ⟨B', h1, hB, hr', hc', -, hz', hrow⟩ := C05_sortIndices srt hs A hA
  obtain ⟨B'', h2, hcoef, -⟩ := C05_sortIndices_coef srt hs A hA
  rw [h] at h1 h2
  cases h1
  cases h2
  have hm : B.mat n = A.mat n := by
    funext i j
    exact hcoef i j
  refine ⟨hB, by omega, by omega, by omega, hm, ?_⟩
  constructor
  · intro hR
    refine ⟨?_, hm ▸ hR.unit⟩
    intro i
    by_cases hi : 0 ≤ i ∧ i < A.rows
    · obtain ⟨k, rfl⟩ : ∃ k : Nat, i = k := ⟨i.toNat, by omega⟩
      have := hR.asc k (by omega)
      have hp := ((hrow (k : Int)).1.map Prod.fst).nodup_iff
      rw [← hp, List.Nodup, List.pairwise_map]
      exact this.imp (fun h => by omega)
    · have : A.row i = [] := by
        by_cases h0 : 0 ≤ i
        · exact Csr.row_ge A hA.indptr_len (by omega)
        · exact Csr.row_neg A (by omega)
      rw [this]; simp
  · rintro ⟨hd, hu⟩
    refine ⟨hB, by omega, by omega, by omega, ?_, hm ▸ hu⟩
    intro j _
    exact (C05_sortIndices_unique srt srt hs hs A hA hd).2 B h j

/-- Solving with a factored matrix. -/
theorem callSolve_ok (hU : U.Exact) {B : Csr R} {n : Nat} (hB : Ready B n) (At : Bool) (b out : List R) (hb : b.length = n)
    (ho : out.length = n) :
    ∃ x, callSolve U At B b out (fac U B) = .ok x ∧ x.length = n ∧
      (if At then B.mat n else (B.mat n).transpose).mulVec (fun i => x.getD i 0) = fun i : Fin n => b.getD i 0 := by
  have h0 := pos_of_nnz hB.wf hB.rows hB.nz
  have hl := hB.wf.indptr_len
  have hr := hB.rows
  have hi := hB.wf.indices_len
  have hlast := last_indptr hB.wf hB.rows
  have hcm := colMat_eq hB.wf hB.rows
  obtain ⟨h1, h2, h3⟩ := hU.solve n B.indptr B.indices B.data b (by omega) (by rw [hlast, hi]) (by rw [hi])
    ((colOk_iff hB.wf hB.rows hB.cols h0).mpr hB.asc) (by rw [hcm, Matrix.det_transpose]; exact hB.unit) hb At
  unfold callSolve need
  have e : b.take B.rows.toNat = b := by rw [List.take_of_length_le]; omega
  have hb' : B.rows ≤ ((b.length : Nat) : Int) := by omega
  have ho' : B.rows ≤ ((out.length : Nat) : Int) := by omega
  rw [arrays_ok hB.wf (by rw [hB.rows, hB.cols]), ok_bind, if_pos hb', ok_bind, if_pos ho', ok_bind]
  simp only [fac, hB.rows, hB.cols] at e ⊢
  rw [e, cassert_true h1, ok_bind]
  refine ⟨_, rfl, ?_, ?_⟩
  · unfold overwrite
    rw [List.length_append, List.length_drop, h2]
    omega
  · rw [hcm, Matrix.transpose_transpose] at h3
    have e2 : ∀ l : List R, l.length = n → overwrite l out = l := by
      intro l hl
      unfold overwrite
      rw [List.drop_of_length_le (by omega), List.append_nil]
    rw [e2 _ h2]
    cases At
    · simpa using h3
    · simpa using h3

/-- A solver stands for the matrix `A`. -/
def Repr (U : Umfpack R S N) (srt : Csr.Sorter) (F : Factors N) (s : SparseSolver R) (A : Csr R) : Prop :=
  A.WF ∧ A.rows = A.cols ∧ s.rows = A.rows ∧ s.cols = A.cols ∧
    ((A.nnz = 0 ∧ s.A = A ∧ s.numeric = .null) ∨
     (0 < A.nnz ∧ A.sortIndices srt = .ok s.A ∧ Ready s.A A.rows.toNat ∧ ∃ k, s.numeric = .to k ∧ F[k]? = some (some (fac U s.A))))

open Classical in
theorem new_eq (hU : U.Exact) {srt : Csr.Sorter} (hs : IsSort srt) (F : Factors N) {A : Csr R} (hA : A.WF) :
    if A.rows = A.cols ∧ (A.nnz = 0 ∨ A.NoDup ∧ IsUnit (A.mat A.rows.toNat).det)
    then ∃ s, new U srt F A = .ok (if A.nnz = 0 then F else F ++ [some (fac U s.A)], s) ∧
      Repr U srt (if A.nnz = 0 then F else F ++ [some (fac U s.A)]) s A ∧ (A.nnz ≠ 0 → s.numeric = .to F.length)
    else new U srt F A = .error .assertFail := by
  have hr0 := hA.rows_nonneg
  unfold new
  by_cases hsq : A.rows = A.cols
  · by_cases hz : A.nnz = 0
    · rw [if_pos ⟨hsq, Or.inl hz⟩, cassert_true hsq, ok_bind, if_neg (show ¬ A.nnz > 0 by omega)]
      refine ⟨_, by rw [if_pos hz], ?_, fun h => absurd hz h⟩
      exact ⟨hA, hsq, rfl, rfl, Or.inl ⟨hz, rfl, rfl⟩⟩
    · have hz' : 0 < A.nnz := by unfold Csr.nnz at *; omega
      obtain ⟨B, hsort, -⟩ := C05_sortIndices srt hs A hA
      obtain ⟨hB, hrB, hcB, hzB, hm, hiff⟩ := ready_sorted hs hA (n := A.rows.toNat) (by omega) (by omega) hz' hsort
      have hinit := init_eq hU hB hrB hcB hzB
      rw [cassert_true hsq, ok_bind, if_pos hz', hsort, ok_bind]
      by_cases hd : A.NoDup ∧ IsUnit (A.mat A.rows.toNat).det
      · rw [if_pos ⟨hsq, Or.inr hd⟩, hinit.1 (hiff.mpr hd), ok_bind]
        refine ⟨⟨A.rows, A.cols, B, .to F.length⟩, by rw [if_neg hz], ?_, fun _ => rfl⟩
        refine ⟨hA, hsq, rfl, rfl, Or.inr ⟨hz', hsort, hiff.mpr hd, F.length, rfl, ?_⟩⟩
        rw [if_neg hz]
        simp
      · rw [if_neg (by rintro ⟨-, h | h⟩; exacts [hz h, hd h]), hinit.2 (fun h => hd (hiff.mp h))]
        rfl
  · rw [if_neg (fun h => hsq h.1), cassert_false hsq]
    rfl

/-- `Mult` and `MultAT` of a solver that stands for `A`. -/
theorem mult_repr (hU : U.Exact) {srt : Csr.Sorter} (hs : IsSort srt) {F : Factors N} {s : SparseSolver R} {A : Csr R}
    (h : Repr U srt F s A) (b out : List R) (hb : (b.length : Int) = A.rows) (ho : (out.length : Int) = A.rows) :
    (∃ x, s.mult U F b out = .ok x ∧ (x.length : Int) = A.rows ∧
      (A.nnz = 0 → ∀ v ∈ x, v = 0) ∧
      (A.nnz ≠ 0 → (A.mat A.rows.toNat).mulVec (fun i => x.getD i 0) = fun i : Fin A.rows.toNat => b.getD i 0)) ∧
    (∃ x, s.multAT U F b out = .ok x ∧ (x.length : Int) = A.rows ∧
      (A.nnz = 0 → ∀ v ∈ x, v = 0) ∧
      (A.nnz ≠ 0 → (A.mat A.rows.toNat).transpose.mulVec (fun i => x.getD i 0) = fun i : Fin A.rows.toNat => b.getD i 0)) := by
  obtain ⟨hA, hsq, hsr, hsc, h⟩ := h
  have hr0 := hA.rows_nonneg
  rcases h with ⟨hz, hsA, hn⟩ | ⟨hz, hsort, hR, k, hn, hF⟩
  · unfold mult multAT
    rw [hsA, hn]
    constructor
    · rw [cassert_true (by omega), ok_bind, cassert_true (by omega), ok_bind]
      refine ⟨_, rfl, by rw [List.length_map]; exact ho, ?_, fun h => absurd hz h⟩
      intro _ v hv
      obtain ⟨_, -, rfl⟩ := List.mem_map.mp hv
      rfl
    · rw [cassert_true (by omega), ok_bind, cassert_true (by omega), ok_bind]
      refine ⟨_, rfl, by rw [List.length_map]; exact ho, ?_, fun h => absurd hz h⟩
      intro _ v hv
      obtain ⟨_, -, rfl⟩ := List.mem_map.mp hv
      rfl
  · obtain ⟨-, -, -, -, hm, -⟩ := ready_sorted hs hA (n := A.rows.toNat) (by omega) (by omega) hz hsort
    have h1 := hR.rows
    have h2 := hR.cols
    have hfac : factor F k = .ok (fac U s.A) := by unfold factor; rw [hF]
    unfold mult multAT
    rw [hn]
    constructor
    · obtain ⟨x, e, hx, hsol⟩ := callSolve_ok hU hR true b out (by omega) (by omega)
      rw [cassert_true (by omega), ok_bind, cassert_true (by omega), ok_bind]
      refine ⟨x, ?_, by omega, fun h => by omega, fun _ => ?_⟩
      · show (factor F k >>= fun f => callSolve U true s.A b out f) = _
        rw [hfac, ok_bind, e]
      · rw [← hm]; simpa using hsol
    · obtain ⟨x, e, hx, hsol⟩ := callSolve_ok hU hR false b out (by omega) (by omega)
      rw [cassert_true (by omega), ok_bind, cassert_true (by omega), ok_bind]
      refine ⟨x, ?_, by omega, fun h => by omega, fun _ => ?_⟩
      · show (factor F k >>= fun f => callSolve U false s.A b out f) = _
        rw [hfac, ok_bind, e]
      · rw [← hm]; simpa using hsol

end
end SparseSolver
end Linalg
