import Verif.Model.FltDiv
import Verif.Spec.FltDiv
import Verif.Props.SparseUpdate
import Verif.Props.DenseMore
import Verif.Props.PcgRound
import Verif.Proof.Examples

/-!
# C131: divisions by elements of a floating-point type

Which divisors the assertions let through, what a zero that they do not see does, and what a finite solution of a triangular system says about the divisors.
-/

namespace Linalg
open Cpp Floats

section Loops
variable {α : Type}

/-- The loop of `InverseScaleRows`, with any test of the divisors, when one fails it. -/
theorem invRows_fails [Zero α] (A : Csr α) (hA : A.WF) (d : List α) (hd : (d.length : Int) = A.rows) (good : α → Prop) [DecidablePred good]
    (q : α → α → α) (hex : ∃ i, 0 ≤ i ∧ i < A.rows ∧ ¬ good (vecAt d i)) :
    forUp 0 A.rows A.data (fun i data => do
      let s ← rd d i
      cassert (good s)
      A.forRow i data (fun j data => do
        let x ← rd data j
        wr data j (q x s))) = .error .assertFail := by
  obtain ⟨n, rs, hn, hrs, rfl⟩ := hA.exists_rows
  refine forUp_fails (fun _ (data : List α) => data.length = rs.flatten.length) (fun i => good (vecAt d i)) .assertFail (by simp only [Csr.ofRows, List.length_map]) ?_ ?_ hex
  · intro i data i0 i1 hl hg
    rw [rd_vecAt d i0 (by omega), ok_bind, cassert_true hg, ok_bind]
    have i1' : i.toNat < rs.length := by have : i < (rs.length : Int) := i1; omega
    have hp : rd (Csr.ofRows n rs).indptr (i.toNat : Int) = _ := rd_ptrs rs i.toNat i1'.le
    have hp1 : rd (Csr.ofRows n rs).indptr ((i.toNat : Int) + 1) = _ := rd_ptrs_succ rs i.toNat i1'
    rw [Int.toNat_of_nonneg i0] at hp hp1
    unfold Csr.forRow
    rw [hp, ok_bind, hp1, ok_bind]
    refine forUp_inv (by omega) (fun _ (data : List α) => data.length = rs.flatten.length) hl ?_
    intro j data j0 j1 hl
    have hlt : (rs.take i.toNat).flatten.length + rs[i.toNat].length ≤ rs.flatten.length := by
      have e : rs.flatten = (rs.take i.toNat).flatten ++ (rs[i.toNat] ++ (rs.drop (i.toNat + 1)).flatten) := by
        rw [← List.flatten_cons, ← List.drop_eq_getElem_cons i1', ← List.flatten_append, List.take_append_drop]
      rw [e, List.length_append, List.length_append]
      omega
    obtain ⟨jn, rfl⟩ : ∃ jn : Nat, j = jn := ⟨j.toNat, by omega⟩
    rw [rd_nat (by omega), ok_bind, wr_nat (by omega)]
    exact ⟨_, rfl, by simpa using hl⟩
  · intro i data i0 i1 hl hg
    rw [rd_vecAt d i0 (by omega), ok_bind, cassert_false hg]
    rfl

/-- The loop of `InverseScaleCols`, with any test of the divisors, when one of a column with a stored entry fails it. -/
theorem invCols_fails [Zero α] (A : Csr α) (hA : A.WF) (d : List α) (hd : (d.length : Int) = A.cols) (good : α → Prop) [DecidablePred good]
    (q : α → α → α) (hex : ∃ i, ∃ e ∈ A.row i, ¬ good (vecAt d e.1)) :
    forUp 0 A.rows A.data (fun i data =>
      A.forRow i data (fun j data => do
        let c ← rd A.indices j
        let s ← rd d c
        cassert (good s)
        let x ← rd data j
        wr data j (q x s))) = .error .assertFail := by
  obtain ⟨i, e, he, hbad⟩ := hex
  obtain ⟨hi0, hi1, -, -⟩ := Csr.mem_row_ok hA he
  obtain ⟨n, rs, hn, hrs, rfl⟩ := hA.exists_rows
  have hd' : (d.length : Int) = n := hd
  have hi1' : i.toNat < rs.length := by have : i < (rs.length : Int) := hi1; omega
  have hrow : e ∈ rs[i.toNat] := by
    rw [row_ofRows_getD _ _ hi0, List.getD_eq_getElem?_getD, List.getElem?_eq_getElem hi1'] at he
    exact he
  -- the body at position m of row k
  have key : ∀ (k : Nat) (hk : k < rs.length) (data : List α), data.length = rs.flatten.length →
      ((∀ e ∈ rs[k], good (vecAt d e.1)) → ∃ data', (Csr.ofRows n rs).forRow (k : Int) data (fun j data => do
        let c ← rd (Csr.ofRows n rs).indices j
        let s ← rd d c
        cassert (good s)
        let x ← rd data j
        wr data j (q x s)) = .ok data' ∧ data'.length = rs.flatten.length) ∧
      ((¬ ∀ e ∈ rs[k], good (vecAt d e.1)) → (Csr.ofRows n rs).forRow (k : Int) data (fun j data => do
        let c ← rd (Csr.ofRows n rs).indices j
        let s ← rd d c
        cassert (good s)
        let x ← rd data j
        wr data j (q x s)) = .error .assertFail) := by
    intro k hk data hl
    have hp : rd (Csr.ofRows n rs).indptr (k : Int) = _ := rd_ptrs rs k hk.le
    have hp1 : rd (Csr.ofRows n rs).indptr ((k : Int) + 1) = _ := rd_ptrs_succ rs k hk
    have hlt : (rs.take k).flatten.length + rs[k].length ≤ rs.flatten.length := by
      have e : rs.flatten = (rs.take k).flatten ++ (rs[k] ++ (rs.drop (k + 1)).flatten) := by
        rw [← List.flatten_cons, ← List.drop_eq_getElem_cons hk, ← List.flatten_append, List.take_append_drop]
      rw [e, List.length_append, List.length_append]
      omega
    have hb : ∀ (j : Int) (data : List α), (((rs.take k).flatten.length : Nat) : Int) ≤ j → j < (((rs.take k).flatten.length + rs[k].length : Nat) : Int) →
        data.length = rs.flatten.length → ∃ (m : Nat) (hm : m < rs[k].length) (data' : List α), j = (((rs.take k).flatten.length + m : Nat) : Int) ∧
          data'.length = rs.flatten.length ∧ (do
            let c ← rd (Csr.ofRows n rs).indices j
            let s ← rd d c
            cassert (good s)
            let x ← rd data j
            wr data j (q x s) : Res (List α)) = (do
            cassert (good (vecAt d rs[k][m].1))
            .ok data') := by
      intro j data j0 j1 hl
      obtain ⟨m, hm, rfl⟩ : ∃ m : Nat, m < rs[k].length ∧ j = (((rs.take k).flatten.length + m : Nat) : Int) :=
        ⟨j.toNat - (rs.take k).flatten.length, by omega, by omega⟩
      have hc := hrs rs[k] (List.getElem_mem hk) _ (List.getElem_mem hm)
      have hin : (rs.take k).flatten.length + m < data.length := by omega
      refine ⟨m, hm, data.set ((rs.take k).flatten.length + m) (q data[(rs.take k).flatten.length + m] (vecAt d rs[k][m].1)), rfl, by simpa using hl, ?_⟩
      rw [rd_indices_ofRows n rs k m hk hm, ok_bind, rd_vecAt d hc.1 (by omega), ok_bind, rd_nat hin, ok_bind, wr_nat hin]
    unfold Csr.forRow
    rw [hp, ok_bind, hp1, ok_bind]
    refine ⟨fun hg => ?_, fun hg => ?_⟩
    · refine forUp_inv (by omega) (fun _ (data : List α) => data.length = rs.flatten.length) hl ?_
      intro j data j0 j1 hl
      obtain ⟨m, hm, data', -, hl', e⟩ := hb j data j0 j1 hl
      rw [e, cassert_true (hg _ (List.getElem_mem hm)), ok_bind]
      exact ⟨_, rfl, hl'⟩
    · refine forUp_fails (fun _ (data : List α) => data.length = rs.flatten.length)
        (fun j => ∀ m (hm : m < rs[k].length), j = (((rs.take k).flatten.length + m : Nat) : Int) → good (vecAt d rs[k][m].1)) .assertFail hl ?_ ?_ ?_
      · intro j data j0 j1 hl h
        obtain ⟨m, hm, data', hj, hl', e⟩ := hb j data j0 j1 hl
        rw [e, cassert_true (h m hm hj), ok_bind]
        exact ⟨_, rfl, hl'⟩
      · intro j data j0 j1 hl h
        obtain ⟨m, hm, data', hj, hl', e⟩ := hb j data j0 j1 hl
        rw [e, cassert_false]
        · rfl
        · intro h'
          apply h
          intro m' hm' hj'
          obtain rfl : m' = m := by omega
          exact h'
      · push Not at hg
        obtain ⟨e, he, hbad⟩ := hg
        obtain ⟨m, hm, rfl⟩ := List.getElem_of_mem he
        exact ⟨(((rs.take k).flatten.length + m : Nat) : Int), by omega, by omega, fun h => hbad (h m hm rfl)⟩
  have hget : ∀ k (hk : k < rs.length), rs.getD k [] = rs[k] := fun k hk => by
    rw [List.getD_eq_getElem?_getD, List.getElem?_eq_getElem hk]
    rfl
  refine forUp_fails (fun _ (data : List α) => data.length = rs.flatten.length) (fun i => ∀ e ∈ rs.getD i.toNat [], good (vecAt d e.1))
    .assertFail (by simp only [Csr.ofRows, List.length_map]) ?_ ?_ ⟨i, hi0, hi1, fun h => hbad (h e (by rw [hget i.toNat hi1']; exact hrow))⟩
  · intro i data i0 i1 hl hg
    have i1' : i.toNat < rs.length := by have : i < (rs.length : Int) := i1; omega
    rw [hget i.toNat i1'] at hg
    have := (key i.toNat i1' data hl).1 hg
    rwa [Int.toNat_of_nonneg i0] at this
  · intro i data i0 i1 hl hg
    have i1' : i.toNat < rs.length := by have : i < (rs.length : Int) := i1; omega
    rw [hget i.toNat i1'] at hg
    have := (key i.toNat i1' data hl).2 hg
    rwa [Int.toNat_of_nonneg i0] at this

end Loops

/-- **C12.**  `InverseScaleRows` rejects a zero for any row, `InverseScaleCols` one for a column with a stored entry. -/
theorem C12_inverseScale_zero {α : Type} [DivisionRing α] [DecidableEq α] (A : Csr α) (hA : A.WF) (d : List α) :
    ((d.length : Int) = A.rows → 0 ∈ d → A.inverseScaleRows d = .error .assertFail) ∧
    ((d.length : Int) = A.cols → (∃ i, ∃ e ∈ A.row i, vecAt d e.1 = 0) → A.inverseScaleCols d = .error .assertFail) := by
  refine ⟨fun hd h0 => ?_, fun hd h0 => ?_⟩
  · unfold Csr.inverseScaleRows
    obtain ⟨k, hk, hz⟩ := List.getElem_of_mem h0
    rw [cassert_true hd, ok_bind, invRows_fails A hA d hd (fun s => s ≠ 0) (fun x s => x / s) ⟨k, by omega, by omega, by
      rw [vecAt_int d (by omega) (by omega)]; simpa using hz⟩]
    rfl
  · unfold Csr.inverseScaleCols
    obtain ⟨i, e, he, hz⟩ := h0
    rw [cassert_true hd, ok_bind, invCols_fails A hA d hd (fun s => s ≠ 0) (fun x s => x / s) ⟨i, e, he, by simpa using hz⟩]
    rfl

/-- C12: a zero for an empty row is rejected, one for an empty column is not. -/
example : ∃ A : Csr ℚ, A.WF ∧ A.inverseScaleRows [2, 0] = .error .assertFail ∧ A.inverseScaleCols [2, 0] = .ok ⟨2, 2, [0, 1, 1], [0], [2]⟩ ∧
    A.inverseScaleCols [0, 2] = .error .assertFail :=
  ⟨⟨2, 2, [0, 1, 1], [0], [4]⟩, by decide +kernel, by decide +kernel, by decide +kernel, by decide +kernel⟩

variable {F : Type} [Floats F]

/-! ## Vectors -/

theorem isZero_false {a : F} : eq a 0 = false ↔ ¬ IsZero a := by
  unfold IsZero
  simp

/-- **C131.**  `x /= y`: every element is divided by the other if no divisor is a zero, and otherwise the assertion fails.  NaN is not a zero. -/
theorem C131_div (x y : List F) :
    (x.length = y.length → (∀ b ∈ y, ¬ IsZero b) → ∃ z, Flt.divAssign x y = .ok z ∧ VecIs z x.length (fun i => vecAt x i / vecAt y i)) ∧
    ((x.length ≠ y.length ∨ ∃ b ∈ y, IsZero b) → Flt.divAssign x y = .error .assertFail) := by
  have body : ∀ (h : x.length = y.length) (i : Int) (f : Int → F), 0 ≤ i → i < (x.length : Int) → (do
        let b ← vrd y i
        cassert (eq b 0 = false)
        let a ← vrd (vecFn x.length f) i
        vwr (vecFn x.length f) i (a / b) : Res (List F)) = (do
        cassert (eq (vecAt y i) 0 = false)
        .ok (vecFn x.length (fun a => if a = i then f i / vecAt y i else f a))) := by
    intro h i f i0 i1
    conv_lhs => rw [eq_vecFn_vecAt y]
    rw [vrd_vecFn i0 (by omega), ok_bind]
    congr 1
    funext _
    rw [vrd_vecFn i0 i1, ok_bind, vwr_vecFn _ i0 i1]
  unfold Flt.divAssign
  refine ⟨fun h hz => ?_, fun h => ?_⟩
  · rw [cassert_true h, ok_bind]
    obtain ⟨z, e, f, rfl, hf⟩ := forUp_inv (a := 0) (b := x.length) (by omega) (f := fun i x' => do
        let b ← vrd y i
        cassert (eq b 0 = false)
        let a ← vrd x' i
        vwr x' i (a / b))
      (fun k x' => ∃ f, x' = vecFn x.length f ∧ ∀ i, f i = if 0 ≤ i ∧ i < k then vecAt x i / vecAt y i else vecAt x i)
      (s := x) ⟨vecAt x, eq_vecFn_vecAt x, fun i => by rw [if_neg (by omega)]⟩ (by
        rintro i s i0 i1 ⟨f, rfl, hf⟩
        refine ⟨_, ?_, fun a => if a = i then f i / vecAt y i else f a, rfl, ?_⟩
        · rw [body h i f i0 i1, cassert_true, ok_bind]
          rw [isZero_false, vecAt_int y i0 (by omega)]
          exact hz _ (List.getElem_mem _)
        · intro a
          beta_reduce
          by_cases ha : a = i
          · subst ha
            rw [if_pos rfl, if_pos (by omega), hf a, if_neg (by omega)]
          · rw [if_neg ha, hf a]
            by_cases hb : 0 ≤ a ∧ a < i
            · rw [if_pos hb, if_pos (by omega)]
            · rw [if_neg hb, if_neg (by omega)])
    exact ⟨_, e, (is_vecFn _ _).congr (fun i i0 i1 => by rw [hf i, if_pos ⟨i0, i1⟩])⟩
  · by_cases hl : x.length = y.length
    · obtain ⟨b, hb, hz⟩ := h.resolve_left (fun h => h hl)
      obtain ⟨k, hk, rfl⟩ := List.getElem_of_mem hb
      rw [cassert_true hl, ok_bind]
      refine forUp_fails (fun _ s => ∃ f, s = vecFn x.length f) (fun i => eq (vecAt y i) 0 = false) .assertFail ⟨_, eq_vecFn_vecAt x⟩ ?_ ?_
        ⟨k, by omega, by omega, ?_⟩
      · rintro i s i0 i1 ⟨f, rfl⟩ hg
        rw [body hl i f i0 i1, cassert_true hg, ok_bind]
        exact ⟨_, rfl, _, rfl⟩
      · rintro i s i0 i1 ⟨f, rfl⟩ hg
        rw [body hl i f i0 i1, cassert_false hg]
        rfl
      · rw [isZero_false, vecAt_int y (by omega) (by omega)]
        simpa using hz
    · rw [cassert_false hl]
      rfl

/-- **C131.**  `val / x`: never an error; the elements where `x` is zero or NaN are not finite. -/
theorem C131_over [DivLaws F] (val : F) (x : List F) :
    VecIs (Flt.scalarOver val x) x.length (fun i => val / vecAt x i) ∧
      ∀ i : Int, 0 ≤ i → i < x.length → IsZero (vecAt x i) ∨ IsNan (vecAt x i) → ¬ IsFin (vecAt (Flt.scalarOver val x) i) := by
  have h : VecIs (Flt.scalarOver val x) x.length (fun i => val / vecAt x i) := by
    unfold Flt.scalarOver
    refine ⟨by simp, fun i i0 i1 => ?_⟩
    obtain ⟨k, rfl⟩ : ∃ k : Nat, i = k := ⟨i.toNat, by omega⟩
    rw [rd_nat (by simp; omega), List.getElem_map, vecAt_int x i0 i1]
    rfl
  refine ⟨h, fun i i0 i1 hz => ?_⟩
  rw [h.vecAt_eq i0 i1]
  rcases hz with hz | hz
  · exact DivLaws.zero _ _ hz
  · exact DivLaws.nan _ _ hz

/-! ## Matrices -/

/-- **C131.**  `A /= val`, for sparse and dense matrices. -/
theorem C131_scalar (A : Csr F) (D : Dense F) (val : F) :
    (¬ IsZero val → Flt.sparseDiv A val = .ok { A with data := A.data.map (fun d => d / val) } ∧
      Flt.denseDiv D val = .ok { D with data := D.data.map (fun d => d / val) }) ∧
    (IsZero val → Flt.sparseDiv A val = .error .assertFail ∧ Flt.denseDiv D val = .error .assertFail) := by
  unfold Flt.sparseDiv Flt.denseDiv
  refine ⟨fun h => ?_, fun h => ?_⟩
  · rw [cassert_true (isZero_false.mpr h)]
    exact ⟨rfl, rfl⟩
  · rw [cassert_false (fun h' => isZero_false.mp h' h)]
    exact ⟨rfl, rfl⟩

/-- **C131.**  `InverseScaleRows(d)` of a sparse matrix: the stored values are divided if no element of `d` is a zero, and otherwise the assertion fails. -/
theorem C131_sparse_rows (A : Csr F) (hA : A.WF) (d : List F) (hd : (d.length : Int) = A.rows) :
    ((∀ s ∈ d, ¬ IsZero s) → ∃ B, Flt.sparseInvRows A d = .ok B ∧ B.WF ∧ A.UpdatedBy B (fun i _ v => v / vecAt d i)) ∧
    ((∃ s ∈ d, IsZero s) → Flt.sparseInvRows A d = .error .assertFail) := by
  refine ⟨fun hnz => ?_, fun h0 => ?_⟩
  · obtain ⟨n, rs, hn, hrs, rfl⟩ := hA.exists_rows
    unfold Flt.sparseInvRows
    rw [cassert_true hd]
    simp only [ok_bind]
    have hd' : (d.length : Int) = (rs.length : Int) := hd
    have hl : ∀ data : List F, forUp 0 (Csr.ofRows n rs).rows data (fun i data => do
        let s ← rd d i
        cassert (eq s 0 = false)
        (Csr.ofRows n rs).forRow i data (fun j data => do
          let x ← rd data j
          wr data j (x / s)))
        = forUp 0 (Csr.ofRows n rs).rows data (fun i data =>
        (Csr.ofRows n rs).forRow i data (fun j data => do
          let x ← rd data j
          wr data j (x / vecAt d i))) := by
      intro data
      apply forUp_congr
      intro i s h0 h1
      have h1' : i < (rs.length : Int) := h1
      rw [rd_vecAt d h0 (by omega)]
      simp only [ok_bind]
      rw [cassert_true (by rw [vecAt_int d h0 (by omega), isZero_false]; exact hnz _ (List.getElem_mem _))]
      rfl
    rw [hl]
    refine upd_ofRows hn hrs (fun i j data => do
          let x ← rd data j
          wr data j (x / vecAt d i)) (fun i e => e.2 / vecAt d i) ?_
    intro t p ht hp hi dd hdd hv
    simp only [hv, ok_bind]
    exact wr_nat (by omega)
  · unfold Flt.sparseInvRows
    obtain ⟨s, hs, hz⟩ := h0
    obtain ⟨k, hk, rfl⟩ := List.getElem_of_mem hs
    rw [cassert_true hd, ok_bind, invRows_fails A hA d hd (fun s => eq s 0 = false) (fun x s => x / s) ⟨k, by omega, by omega, by
      rw [isZero_false, vecAt_int d (by omega) (by omega)]; simpa using hz⟩]
    rfl

/-- **C131.**  `InverseScaleCols(d)` of a sparse matrix: only the divisors of columns with a stored entry are tested. -/
theorem C131_sparse_cols (A : Csr F) (hA : A.WF) (d : List F) (hd : (d.length : Int) = A.cols) :
    ((∀ i, ∀ e ∈ A.row i, ¬ IsZero (vecAt d e.1)) → ∃ B, Flt.sparseInvCols A d = .ok B ∧ B.WF ∧ A.UpdatedBy B (fun _ j v => v / vecAt d j)) ∧
    ((∃ i, ∃ e ∈ A.row i, IsZero (vecAt d e.1)) → Flt.sparseInvCols A d = .error .assertFail) := by
  refine ⟨fun hnz => ?_, fun h0 => ?_⟩
  · obtain ⟨n, rs, hn, hrs, rfl⟩ := hA.exists_rows
    have hd' : (d.length : Int) = n := hd
    unfold Flt.sparseInvCols
    rw [cassert_true hd]
    simp only [ok_bind]
    refine upd_ofRows hn hrs _ (fun _ e => e.2 / vecAt d e.1) ?_
    intro t p ht hp hi dd hdd hv
    have hc := (triplesL_ok hrs t ht).2
    simp only [hv, hi, ok_bind]
    rw [rd_vecAt d hc.1 (by omega)]
    simp only [ok_bind]
    have hrow : t.2 ∈ (Csr.ofRows n rs).row t.1 := by
      obtain ⟨k, hk, h1, h2⟩ := mem_triplesL.mp ht
      rw [h1, row_ofRows_getD _ _ (by omega), List.getD_eq_getElem?_getD, Int.toNat_natCast, List.getElem?_eq_getElem hk]
      exact h2
    rw [cassert_true (isZero_false.mpr (hnz t.1 t.2 hrow))]
    simp only [ok_bind]
    exact wr_nat (by omega)
  · unfold Flt.sparseInvCols
    obtain ⟨i, e, he, hz⟩ := h0
    rw [cassert_true hd, ok_bind, invCols_fails A hA d hd (fun s => eq s 0 = false) (fun x s => x / s) ⟨i, e, he, fun h => isZero_false.mp h hz⟩]
    rfl

/-- **C131.**  `InverseScaleRows(v)` and `InverseScaleCols(v)` of a dense matrix.  With no columns, the divisors of the rows are not tested. -/
theorem C131_dense (A : Dense F) (hA : A.WF) (v : List F) :
    (A.rows ≤ v.length → ((∀ i, 0 ≤ i → i < A.rows → ¬ IsZero (vecAt v i)) → ∃ C, Flt.denseInvRows A v = .ok C ∧
        C.Is A.rows A.cols (fun i j => A.entry i j / vecAt v i)) ∧
      (1 ≤ A.cols → (∃ i, 0 ≤ i ∧ i < A.rows ∧ IsZero (vecAt v i)) → Flt.denseInvRows A v = .error .assertFail)) ∧
    (A.cols ≤ v.length → ((∀ j, 0 ≤ j → j < A.cols → ¬ IsZero (vecAt v j)) → ∃ C, Flt.denseInvCols A v = .ok C ∧
        C.Is A.rows A.cols (fun i j => A.entry i j / vecAt v j)) ∧
      ((∃ j, 0 ≤ j ∧ j < A.cols ∧ IsZero (vecAt v j)) → Flt.denseInvCols A v = .error .assertFail)) := by
  obtain ⟨m, n, f, rfl⟩ := hA.exists_fn
  simp only [Dense.ofFn_rows, Dense.ofFn_cols]
  refine ⟨fun hl => ⟨fun hz => ?_, fun hc hz => ?_⟩, fun hl => ⟨fun hz => ?_, fun hz => ?_⟩⟩
  · refine ⟨Dense.ofFn m n (fun i j => f i j / vecAt v i), ?_, (Dense.is_ofFn m n _).congr ?_⟩
    · refine Dense.colsLoop f _ _ ?_
      intro j h j0 j1 hh
      refine Dense.oneColLoop h (fun i j => f i j / vecAt v i) j j0 j1 _ ?_
      intro i w i0 i1 hw
      rw [rd_vecAt v i0 (by omega), ok_bind, cassert_true (isZero_false.mpr (hz i i0 i1)), ok_bind, Dense.get_ofFn i0 i1 j0 j1, ok_bind,
        hw, hh]
    · intro i j a b c d
      rw [Dense.entry_ofFn a b c d]
  · unfold Flt.denseInvRows
    simp only [Dense.ofFn_cols]
    rw [forUp_cons (by omega)]
    have : forUp 0 (Dense.ofFn m n f).rows (Dense.ofFn m n f) (fun i D => do
      let s ← rd v i
      cassert (eq s 0 = false)
      let x ← D.get i 0
      D.put i 0 (x / s)) = .error .assertFail := by
      refine forUp_fails (fun _ D => ∃ g, D = Dense.ofFn m n g) (fun i => eq (vecAt v i) 0 = false) _ ⟨f, rfl⟩ ?_ ?_ ?_
      · rintro i s i0 i1 ⟨g, rfl⟩ hi
        simp only [Dense.ofFn_rows] at i1
        rw [rd_vecAt v i0 (by omega), ok_bind, cassert_true hi, ok_bind, Dense.get_ofFn i0 i1 le_rfl (by omega), ok_bind,
          Dense.put_ofFn _ i0 i1 le_rfl (by omega)]
        exact ⟨_, rfl, _, rfl⟩
      · rintro i s i0 i1 ⟨g, rfl⟩ hi
        simp only [Dense.ofFn_rows] at i1
        rw [rd_vecAt v i0 (by omega), ok_bind, cassert_false hi]
        rfl
      · obtain ⟨i, a, b, c⟩ := hz
        exact ⟨i, a, b, fun h => isZero_false.mp h c⟩
    rw [this]
    rfl
  · refine ⟨Dense.ofFn m n (fun i j => f i j / vecAt v j), ?_, (Dense.is_ofFn m n _).congr ?_⟩
    · refine Dense.colsLoop f _ _ ?_
      intro j h j0 j1 hh
      rw [rd_vecAt v j0 (by omega), ok_bind, cassert_true (isZero_false.mpr (hz j j0 j1)), ok_bind]
      refine Dense.oneColLoop h (fun i j => f i j / vecAt v j) j j0 j1 _ ?_
      intro i w i0 i1 hw
      rw [Dense.get_ofFn i0 i1 j0 j1, ok_bind, hw, hh]
    · intro i j a b c d
      rw [Dense.entry_ofFn a b c d]
  · unfold Flt.denseInvCols
    refine forUp_fails (fun _ D => ∃ g, D = Dense.ofFn m n g) (fun j => eq (vecAt v j) 0 = false) _ ⟨f, rfl⟩ ?_ ?_ ?_
    · rintro j s j0 j1 ⟨g, rfl⟩ hj
      simp only [Dense.ofFn_cols] at j1
      rw [rd_vecAt v j0 (by omega), ok_bind, cassert_true hj, ok_bind]
      refine ⟨_, Dense.oneColLoop g (fun i j => g i j / vecAt v j) j j0 j1 _ ?_, _, rfl⟩
      intro i w i0 i1 hw
      rw [Dense.get_ofFn i0 i1 j0 j1, ok_bind, hw]
    · rintro j s j0 j1 ⟨g, rfl⟩ hj
      simp only [Dense.ofFn_cols] at j1
      rw [rd_vecAt v j0 (by omega), ok_bind, cassert_false hj]
      rfl
    · obtain ⟨i, a, b, c⟩ := hz
      exact ⟨i, a, b, fun h => isZero_false.mp h c⟩

/-- **C131.**  NaN passes the assertions: dividing by it makes every stored value of its row NaN. -/
theorem C131_nan [NanLaws F] (A : Csr F) (hA : A.WF) (d : List F) (hd : (d.length : Int) = A.rows) (hz : ∀ s ∈ d, ¬ IsZero s) (i : Int)
    (hi : IsNan (vecAt d i)) : ∃ B, Flt.sparseInvRows A d = .ok B ∧ (B.row i).length = (A.row i).length ∧ ∀ e ∈ B.row i, IsNan e.2 := by
  obtain ⟨B, h1, -, h2⟩ := (C131_sparse_rows A hA d hd).1 hz
  refine ⟨B, h1, by rw [h2.row_eq, List.length_map], fun e he => ?_⟩
  rw [h2.row_eq] at he
  obtain ⟨e', -, rfl⟩ := List.mem_map.mp he
  exact NanLaws.div_nan _ _ (Or.inr hi)

end Linalg
